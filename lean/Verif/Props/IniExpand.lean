import Verif.Model.IniFile
import Verif.Lemmas.Str

/-!
# C05: placeholder expansion

Independent specification: a text is a sequence of tokens; `Tok.render` writes it, `Tok.eval` says what it means.
-/

namespace Verif.IniFile
open Verif.Py

/-- Tokens of a value with placeholders. -/
inductive Tok
  | lit (c : Char)        -- an ordinary character (not `$`)
  | esc                   -- `$$`
  | ref (name : Str)      -- `$(name)`
  | stray                 -- a `$` followed by something other than `$` or `(`
  deriving DecidableEq, Repr

/-- how a token is written -/
def Tok.render : Tok → Str
  | .lit c => [c]
  | .esc => ['$', '$']
  | .ref n => '$' :: '(' :: n ++ [')']
  | .stray => ['$']

/-- what a token stands for -/
def Tok.eval (env : Str → Option Str) : Tok → Str
  | .lit c => [c]
  | .esc => ['$']
  | .ref n => match env n with | some v => v | none => []
  | .stray => []

/-- Well formed token sequences: literals are not `$`, names have no `)`, and a stray `$` is followed by an ordinary
character other than `(`. -/
def TokWF : List Tok → Prop
  | [] => True
  | .lit c :: ts => c ≠ '$' ∧ TokWF ts
  | .esc :: ts => TokWF ts
  | .ref n :: ts => ')' ∉ n ∧ TokWF ts
  | .stray :: ts => (∃ c ts', ts = .lit c :: ts' ∧ c ≠ '(') ∧ TokWF ts

def renderAll (ts : List Tok) : Str := ts.flatMap Tok.render
def evalAll (env : Str → Option Str) (ts : List Tok) : Str := ts.flatMap (Tok.eval env)

theorem expandLoop_render (env : Str → Option Str) (ts : List Tok) (hw : TokWF ts) (n : Nat) (res tail : Str)
    (hn : (renderAll ts ++ tail).length < n) :
    ∃ m, tail.length < m ∧
    expandLoop env n res (renderAll ts ++ tail) = expandLoop env m (res ++ evalAll env ts) tail := by
  induction ts generalizing n res with
  | nil => exact ⟨n, by simpa [renderAll] using hn, by simp [renderAll, evalAll]⟩
  | cons t ts ih =>
    cases n with
    | zero => omega
    | succ n =>
      cases t with
      | lit c =>
        obtain ⟨hc, hw⟩ := hw
        have hn' : (renderAll ts ++ tail).length < n := by
          simp only [renderAll, List.flatMap_cons, Tok.render, List.length_append, List.length_cons,
            List.length_nil] at hn ⊢; omega
        obtain ⟨m, h1, h2⟩ := ih hw n (res ++ [c]) hn'
        refine ⟨m, h1, ?_⟩
        have e : renderAll (.lit c :: ts) ++ tail = c :: (renderAll ts ++ tail) := by
          simp [renderAll, Tok.render]
        rw [e, expandLoop.eq_def]
        simp only [if_neg hc]
        rw [h2]
        simp [evalAll, Tok.eval]
      | esc =>
        have hn' : (renderAll ts ++ tail).length < n := by
          simp only [renderAll, List.flatMap_cons, Tok.render, List.length_append, List.length_cons,
            List.length_nil] at hn ⊢; omega
        obtain ⟨m, h1, h2⟩ := ih hw n (res ++ ['$']) hn'
        refine ⟨m, h1, ?_⟩
        have e : renderAll (.esc :: ts) ++ tail = '$' :: '$' :: (renderAll ts ++ tail) := by
          simp [renderAll, Tok.render]
        rw [e, expandLoop, if_pos rfl]
        simp only [if_true]
        rw [h2]
        simp [evalAll, Tok.eval]
      | ref v =>
        obtain ⟨hv, hw⟩ := hw
        have hn' : (renderAll ts ++ tail).length < n := by
          simp only [renderAll, List.flatMap_cons, Tok.render, List.length_append, List.length_cons,
            List.length_nil, List.cons_append] at hn ⊢; omega
        obtain ⟨m, h1, h2⟩ := ih hw n (res ++ (Tok.ref v).eval env) hn'
        refine ⟨m, h1, ?_⟩
        have e : renderAll (.ref v :: ts) ++ tail = '$' :: '(' :: (v ++ ')' :: (renderAll ts ++ tail)) := by
          simp [renderAll, Tok.render]
        rw [e, expandLoop, if_pos rfl]
        simp only [show ¬ ('(' : Char) = '$' by decide, if_false, if_true, find_append hv]
        have hd : (v ++ ')' :: (renderAll ts ++ tail)).drop (v.length + 1) = renderAll ts ++ tail := by
          rw [← List.drop_drop]; simp
        have ht : (v ++ ')' :: (renderAll ts ++ tail)).take v.length = v := by simp
        rw [hd, ht]
        have : (match env v with | some v => res ++ v | none => res) = res ++ (Tok.ref v).eval env := by
          simp only [Tok.eval]; cases env v <;> simp
        refine Eq.trans (congrArg (fun r => expandLoop env n r (renderAll ts ++ tail)) this) ?_
        rw [h2]
        simp [evalAll]
      | stray =>
        obtain ⟨⟨c, ts', rfl, hc⟩, hw⟩ := hw
        have hc2 : c ≠ '$' := hw.1
        have hn' : (renderAll (.lit c :: ts') ++ tail).length < n := by
          simp only [renderAll, List.flatMap_cons, Tok.render, List.length_append, List.length_cons,
            List.length_nil] at hn ⊢; omega
        obtain ⟨m, h1, h2⟩ := ih hw n res hn'
        refine ⟨m, h1, ?_⟩
        have e : renderAll (.stray :: .lit c :: ts') ++ tail = '$' :: c :: (renderAll ts' ++ tail) := by
          simp [renderAll, Tok.render]
        have e2 : renderAll (.lit c :: ts') ++ tail = c :: (renderAll ts' ++ tail) := by
          simp [renderAll, Tok.render]
        rw [e, expandLoop, if_pos rfl]
        simp only [hc, hc2, if_false]
        rw [← e2, h2]
        simp [evalAll, Tok.eval]

/-- **C05a** A text without the reference marker `$(` is returned unchanged; in particular any text without `$`. -/
theorem expand_no_ref (env : Str → Option Str) (s : Str) (h : ¬ ∃ a b, s = a ++ c!"$(" ++ b) :
    expandPlaceholders env s = .ok s := by
  unfold expandPlaceholders
  have : contains c!"$(" s = false := by
    rw [Bool.eq_false_iff, ne_eq, contains_iff]; exact h
  rw [this]; rfl

example : expandPlaceholders (fun _ => some c!"/home") c!"a $HOME (b) $$" = .ok c!"a $HOME (b) $$" := by decide

theorem expand_no_dollar (env : Str → Option Str) (s : Str) (h : '$' ∉ s) :
    expandPlaceholders env s = .ok s := by
  apply expand_no_ref
  rintro ⟨a, b, rfl⟩
  exact h (by simp)

example : expandPlaceholders (fun _ => some c!"/home") c!"chains/(x)" = .ok c!"chains/(x)" := by decide

/-- **C05b** A text that contains the marker `$(` and is a well formed token sequence evaluates token by token:
references are replaced by the environment value (nothing if unset), `$$` becomes `$`, and replacement values are not
scanned again. -/
theorem expand_tokens (env : Str → Option Str) (ts : List Tok) (hw : TokWF ts)
    (h : ∃ a b, renderAll ts = a ++ c!"$(" ++ b) :
    expandPlaceholders env (renderAll ts) = .ok (evalAll env ts) := by
  unfold expandPlaceholders
  rw [contains_iff.mpr h]
  obtain ⟨m, hm, he⟩ := expandLoop_render env ts hw ((renderAll ts).length + 1) [] [] (by simp)
  simp only [List.append_nil] at he
  simp only [Bool.not_true, Bool.false_eq_true, if_false]
  rw [he]
  cases m with
  | zero => simp at hm
  | succ m => simp [expandLoop]

example : expandPlaceholders (fun n => if n = c!"HOME" then some c!"/home/a" else none) c!"$(HOME)/chains" = .ok c!"/home/a/chains" := by decide

example : TokWF [.lit 'a', .ref c!"HOME", .esc, .stray, .lit 'x'] ∧
    (∃ a b, renderAll [.lit 'a', .ref c!"HOME", .esc, .stray, .lit 'x'] = a ++ c!"$(" ++ b) ∧
    evalAll (fun _ => some c!"$(Z)") [.lit 'a', .ref c!"HOME", .esc, .stray, .lit 'x'] = c!"a$(Z)$x" := by
  refine ⟨?_, ⟨c!"a", c!"HOME)$$$x", by decide⟩, by decide⟩
  simp [TokWF]

/-- **C05c** An unterminated reference raises an error. -/
theorem expand_unterminated (env : Str → Option Str) (ts : List Tok) (hw : TokWF ts) (r : Str) (hr : ')' ∉ r) :
    expandPlaceholders env (renderAll ts ++ c!"$(" ++ r) = .error .valueError := by
  unfold expandPlaceholders
  rw [contains_iff.mpr ⟨_, _, rfl⟩]
  simp only [Bool.not_true, Bool.false_eq_true, if_false]
  rw [List.append_assoc]
  obtain ⟨m, hm, he⟩ := expandLoop_render env ts hw ((renderAll ts ++ (c!"$(" ++ r)).length + 1) [] (c!"$(" ++ r)
    (by omega)
  rw [he]
  cases m with
  | zero => simp at hm
  | succ m =>
    change expandLoop env (m + 1) _ ('$' :: '(' :: r) = _
    simp [expandLoop, find_eq_none.mpr hr]

example : expandPlaceholders (fun _ => some c!"x") c!"$(A)/$(B" = .error .valueError := by decide

example : ')' ∉ c!"HOME" := by decide

/-- **C05d** A text (with a reference somewhere) that ends in an unpaired `$` raises an error. -/
theorem expand_trailing_dollar (env : Str → Option Str) (ts : List Tok) (hw : TokWF ts)
    (h : ∃ a b, renderAll ts = a ++ c!"$(" ++ b) :
    expandPlaceholders env (renderAll ts ++ c!"$") = .error .indexError := by
  unfold expandPlaceholders
  have hc : contains c!"$(" (renderAll ts ++ c!"$") = true := by
    obtain ⟨a, b, h⟩ := h
    exact contains_iff.mpr ⟨a, b ++ c!"$", by rw [h]; simp⟩
  rw [hc]
  simp only [Bool.not_true, Bool.false_eq_true, if_false]
  obtain ⟨m, hm, he⟩ := expandLoop_render env ts hw ((renderAll ts ++ c!"$").length + 1) [] c!"$" (by omega)
  rw [he]
  cases m with
  | zero => simp at hm
  | succ m =>
    change expandLoop env (m + 1) _ ['$'] = _
    simp [expandLoop]

example : expandPlaceholders (fun _ => some c!"x") c!"$(A)/$" = .error .indexError := by decide

/-- **C05e** The cases above are exhaustive: every text is a well formed token sequence, or such a sequence followed by
an unterminated reference, or by a final unpaired `$`. -/
theorem tokens_exhaustive (s : Str) :
    (∃ ts, TokWF ts ∧ s = renderAll ts) ∨
    (∃ ts r, TokWF ts ∧ ')' ∉ r ∧ s = renderAll ts ++ c!"$(" ++ r) ∨
    (∃ ts, TokWF ts ∧ s = renderAll ts ++ c!"$") := by
  suffices H : ∀ n, ∀ s : Str, s.length ≤ n →
      (∃ ts, TokWF ts ∧ s = renderAll ts ∧
        (∀ c r, s = c :: r → c ≠ '$' → ∃ ts', ts = .lit c :: ts')) ∨
      (∃ ts r, TokWF ts ∧ ')' ∉ r ∧ s = renderAll ts ++ c!"$(" ++ r ∧
        (∀ c r', s = c :: r' → c ≠ '$' → ∃ ts', ts = .lit c :: ts')) ∨
      (∃ ts, TokWF ts ∧ s = renderAll ts ++ c!"$" ∧
        (∀ c r, s = c :: r → c ≠ '$' → ∃ ts', ts = .lit c :: ts')) by
    rcases H s.length s (Nat.le_refl _) with ⟨ts, h1, h2, _⟩ | ⟨ts, r, h1, h2, h3, _⟩ | ⟨ts, h1, h2, _⟩
    · exact Or.inl ⟨ts, h1, h2⟩
    · exact Or.inr (Or.inl ⟨ts, r, h1, h2, h3⟩)
    · exact Or.inr (Or.inr ⟨ts, h1, h2⟩)
  intro n
  induction n with
  | zero =>
    intro s hs
    have : s = [] := List.eq_nil_of_length_eq_zero (by omega)
    subst this
    exact Or.inl ⟨[], trivial, rfl, by simp⟩
  | succ n ih =>
    intro s hs
    -- prefixing a token to a classification of the rest
    have pre : ∀ (t : Tok) (s' : Str), s = t.render ++ s' → s'.length ≤ n →
        (∀ ts, TokWF ts → (t = .stray → ∃ c ts', ts = .lit c :: ts' ∧ c ≠ '(') → TokWF (t :: ts)) →
        (t = .stray → ∃ c r, s' = c :: r ∧ c ≠ '$' ∧ c ≠ '(') →
        (∀ c r, s = c :: r → c ≠ '$' → t = .lit c) →
      (∃ ts, TokWF ts ∧ s = renderAll ts ∧
        (∀ c r, s = c :: r → c ≠ '$' → ∃ ts', ts = .lit c :: ts')) ∨
      (∃ ts r, TokWF ts ∧ ')' ∉ r ∧ s = renderAll ts ++ c!"$(" ++ r ∧
        (∀ c r', s = c :: r' → c ≠ '$' → ∃ ts', ts = .lit c :: ts')) ∨
      (∃ ts, TokWF ts ∧ s = renderAll ts ++ c!"$" ∧
        (∀ c r, s = c :: r → c ≠ '$' → ∃ ts', ts = .lit c :: ts')) := by
      intro t s' hs' hl hwf hst hlit
      have stray : ∀ ts : List Tok, (∀ c r, s' = c :: r → c ≠ '$' → ∃ ts', ts = .lit c :: ts') →
          t = .stray → ∃ c ts', ts = .lit c :: ts' ∧ c ≠ '(' := by
        intro ts h0 ht
        obtain ⟨c, r, h1, h2, h3⟩ := hst ht
        obtain ⟨ts', h4⟩ := h0 c r h1 h2
        exact ⟨c, ts', h4, h3⟩
      rcases ih s' hl with ⟨ts, h1, h2, h3⟩ | ⟨ts, r, h1, h2, h3, h4⟩ | ⟨ts, h1, h2, h3⟩
      · refine Or.inl ⟨t :: ts, hwf ts h1 (stray ts h3), ?_, ?_⟩
        · rw [hs', h2]; rfl
        · intro c r hc hd; exact ⟨ts, by rw [hlit c r hc hd]⟩
      · refine Or.inr (Or.inl ⟨t :: ts, r, hwf ts h1 (stray ts h4), h2, ?_, ?_⟩)
        · rw [hs', h3]; simp [renderAll]
        · intro c r hc hd; exact ⟨ts, by rw [hlit c r hc hd]⟩
      · refine Or.inr (Or.inr ⟨t :: ts, hwf ts h1 (stray ts h3), ?_, ?_⟩)
        · rw [hs', h2]; simp [renderAll]
        · intro c r hc hd; exact ⟨ts, by rw [hlit c r hc hd]⟩
    match s, hs with
    | [], _ => exact Or.inl ⟨[], trivial, rfl, by simp⟩
    | c :: rest, hs =>
      simp only [List.length_cons] at hs
      by_cases hc : c = '$'
      · subst hc
        match rest, hs with
        | [], _ =>
          refine Or.inr (Or.inr ⟨[], trivial, rfl, ?_⟩)
          intro c r h hd; cases h; exact absurd rfl hd
        | d :: rest', hs =>
          simp only [List.length_cons] at hs
          by_cases hd : d = '$'
          · subst hd
            refine pre .esc rest' rfl (by omega) (fun ts h _ => h) (by simp) ?_
            intro c r h hd; cases h; exact absurd rfl hd
          · by_cases hp : d = '('
            · subst hp
              cases hf : find ')' rest' with
              | none =>
                refine Or.inr (Or.inl ⟨[], rest', trivial, find_eq_none.mp hf, rfl, ?_⟩)
                intro c r h hd; cases h; exact absurd rfl hd
              | some i =>
                obtain ⟨h1, h2, h3⟩ := find_some hf
                refine pre (.ref (rest'.take i)) (rest'.drop (i + 1)) ?_ ?_ (fun ts h _ => ⟨h3, h⟩) (by simp) ?_
                · conv => lhs; rw [h2]
                  simp [Tok.render]
                · simp; omega
                · intro c r h hd; cases h; exact absurd rfl hd
            · refine pre .stray (d :: rest') rfl (by simp; omega) (fun ts h h' => ⟨h' rfl, h⟩)
                (fun _ => ⟨d, rest', rfl, hd, hp⟩) ?_
              intro c r h hd; cases h; exact absurd rfl hd
      · refine pre (.lit c) rest rfl (by omega) (fun ts h _ => ⟨hc, h⟩) (by simp) ?_
        intro c' r h _; cases h; rfl

example : renderAll [.lit 'a', .ref c!"HOME", .esc] = c!"a$(HOME)$$" ∧ c!"a$(HOME" = renderAll [.lit 'a'] ++ c!"$(" ++ c!"HOME" := by decide

/-- `$$` is only an escape in texts that contain a `$(` somewhere: the value of the same token sequence `x$$` depends
on unrelated text elsewhere in the value (recorded disagreement with the doc string "like in Makefiles"). -/
theorem expand_escape_inconsistent :
    expandPlaceholders (fun _ => none) c!"x$$" = .ok c!"x$$" ∧
    expandPlaceholders (fun _ => none) c!"x$$$(A)" = .ok c!"x$" := by decide

example : expandPlaceholders (fun _ => some c!"v") c!"x$$$(A)" = .ok c!"x$v" := by decide

end Verif.IniFile
