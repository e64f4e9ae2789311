import Verif.Lemmas.Str
import Verif.Py.Float

/-!
# Splitting text into white space separated tokens
-/

namespace Verif.Py

/-- a token: not empty, without white space -/
def Token (t : Str) : Prop := t ≠ [] ∧ ∀ c ∈ t, isWs c = false

instance (t : Str) : Decidable (Token t) := inferInstanceAs (Decidable (_ ∧ _))

/-- white space only -/
def Blank (s : Str) : Prop := ∀ c ∈ s, isWs c = true

theorem dropWhile_append_all {p : Char → Bool} {a b : Str} (h : ∀ c ∈ a, p c = true) :
    (a ++ b).dropWhile p = b.dropWhile p := by
  induction a with
  | nil => rfl
  | cons c a ih =>
    rw [List.cons_append, List.dropWhile_cons_of_pos (h c List.mem_cons_self),
      ih (fun d hd => h d (List.mem_cons_of_mem _ hd))]

theorem lstrip_blank_append {a b : Str} (h : Blank a) : lstrip (a ++ b) = lstrip b := dropWhile_append_all h

theorem dropWhile_length_le {p : Char → Bool} (s : Str) : (s.dropWhile p).length ≤ s.length := by
  induction s with
  | nil => simp
  | cons c s ih =>
    rw [List.dropWhile_cons]
    split
    · simp only [List.length_cons]; omega
    · exact le_refl _

theorem splitWsAux_fuel : ∀ (n m : Nat) (s : Str), s.length ≤ n → s.length ≤ m → splitWsAux n s = splitWsAux m s
  | 0, 0, _, _, _ => rfl
  | 0, m + 1, s, h, _ => by
    have : s = [] := by simpa using h
    subst this; simp [splitWsAux, lstrip]
  | n + 1, 0, s, _, h => by
    have : s = [] := by simpa using h
    subst this; simp [splitWsAux, lstrip]
  | n + 1, m + 1, s, h1, h2 => by
    unfold splitWsAux
    cases hl : lstrip s with
    | nil => rfl
    | cons c cs =>
      dsimp only
      congr 1
      have a1 : (c :: cs).length ≤ s.length := by rw [← hl]; exact dropWhile_length_le s
      have hc : isWs c = false := dropWhile_head (p := isWs) s c (by
        have : s.dropWhile isWs = c :: cs := hl
        rw [this]; rfl)
      have a2 : ((c :: cs).dropWhile (fun c => !isWs c)).length ≤ cs.length := by
        rw [List.dropWhile_cons_of_pos (by simp [hc])]
        exact dropWhile_length_le cs
      simp only [List.length_cons] at a1
      exact splitWsAux_fuel n m _ (by omega) (by omega)

theorem splitWs_blank_append {a b : Str} (h : Blank a) : splitWs (a ++ b) = splitWs b := by
  unfold splitWs
  rw [splitWsAux_fuel _ ((a ++ b).length + 1) (a ++ b) (le_refl _) (by omega),
    splitWsAux_fuel b.length ((a ++ b).length + 1) b (le_refl _) (by rw [List.length_append]; omega)]
  unfold splitWsAux
  rw [lstrip_blank_append h]

theorem splitWs_blank {a : Str} (h : Blank a) : splitWs a = [] := by
  have := splitWs_blank_append (b := []) h
  rwa [List.append_nil] at this

theorem splitWs_tok {t r : Str} (ht : Token t) (hr : ∀ c, r.head? = some c → isWs c = true) :
    splitWs (t ++ r) = t :: splitWs r := by
  obtain ⟨hne, hn⟩ := ht
  cases t with
  | nil => exact absurd rfl hne
  | cons c t =>
    have hl : lstrip (c :: t ++ r) = c :: t ++ r := lstrip_eq_self (by
      intro d hd
      simp only [List.cons_append, List.head?_cons, Option.some.injEq] at hd
      subst hd; exact hn c List.mem_cons_self)
    have h1 : ∀ x ∈ c :: t, (!isWs x) = true := by intro x hx; simp [hn x hx]
    have h2 : (c :: t ++ r).takeWhile (fun c => !isWs c) = c :: t ∧
        (c :: t ++ r).dropWhile (fun c => !isWs c) = r := by
      cases r with
      | nil =>
        rw [List.append_nil]
        exact ⟨Path.takeWhile_all h1, Path.dropWhile_all h1⟩
      | cons w r =>
        have hw : (!isWs w) = false := by simp [hr w rfl]
        exact ⟨Path.takeWhile_append_stop h1 hw, Path.dropWhile_append_stop h1 hw⟩
    unfold splitWs
    rw [List.length_append, List.length_cons, show t.length + 1 + r.length = (t.length + r.length) + 1 by omega]
    conv_lhs => unfold splitWsAux
    rw [hl]
    simp only [List.cons_append] at h2 ⊢
    rw [h2.1, h2.2]
    congr 1
    exact splitWsAux_fuel _ _ _ (by omega) (le_refl _)

/-- text made of padded tokens -/
def fields (l : List (Str × Str)) : Str := l.flatMap (fun p => p.1 ++ p.2)

theorem splitWs_fields_cont : ∀ {l : List (Str × Str)} {tail : Str}, (∀ p ∈ l, p.1 ≠ [] ∧ Blank p.1 ∧ Token p.2) → Blank tail →
    splitWs (fields l ++ tail) = l.map (·.2)
  | [], tail, _, ht => by simp [fields, splitWs_blank ht]
  | (a, t) :: l, tail, h, ht => by
    have e : fields ((a, t) :: l) ++ tail = a ++ (t ++ (fields l ++ tail)) := by simp [fields]
    obtain ⟨_, h2, h3⟩ := h (a, t) List.mem_cons_self
    have hrest : ∀ p ∈ l, p.1 ≠ [] ∧ Blank p.1 ∧ Token p.2 := fun p hp => h p (List.mem_cons_of_mem _ hp)
    rw [e, splitWs_blank_append h2, splitWs_tok h3, splitWs_fields_cont hrest ht]
    · rfl
    · intro c hc
      cases l with
      | nil =>
        simp only [fields, List.flatMap_nil, List.nil_append] at hc
        exact ht c (List.mem_of_mem_head? hc)
      | cons p l =>
        obtain ⟨hp1, hp2, _⟩ := hrest p List.mem_cons_self
        have : (fields (p :: l) ++ tail).head? = p.1.head? := by
          cases hp : p.1 with
          | nil => exact absurd hp hp1
          | cons x xs => simp [fields, hp]
        rw [this] at hc
        exact hp2 c (List.mem_of_mem_head? hc)

/-- the first token need not be padded -/
theorem splitWs_fields {a t tail : Str} {l : List (Str × Str)} (ha : Blank a) (ht : Token t)
    (h : ∀ p ∈ l, p.1 ≠ [] ∧ Blank p.1 ∧ Token p.2) (hb : Blank tail) :
    splitWs (a ++ t ++ fields l ++ tail) = t :: l.map (·.2) := by
  have e : splitWs (a ++ t ++ fields l ++ tail) = splitWs ([' '] ++ (a ++ t ++ fields l ++ tail)) :=
    (splitWs_blank_append (by intro c hc; rw [List.mem_singleton] at hc; subst hc; decide)).symm
  have e2 : [' '] ++ (a ++ t ++ fields l ++ tail) = fields ((' ' :: a, t) :: l) ++ tail := by simp [fields]
  rw [e, e2, splitWs_fields_cont]
  · rfl
  · intro p hp
    rcases List.mem_cons.mp hp with rfl | hp
    · refine ⟨by simp, ?_, ht⟩
      intro c hc
      rcases List.mem_cons.mp hc with rfl | hc
      · decide
      · exact ha c hc
    · exact h p hp
  · exact hb

theorem blank_replicate (n : Nat) : Blank (List.replicate n ' ') := by
  intro c hc; rw [(List.mem_replicate.mp hc).2]; decide

theorem blank_space : Blank [' '] := blank_replicate 1
theorem blank_nl : Blank ['\n'] := by intro c hc; rw [List.mem_singleton] at hc; subst hc; decide

theorem token_fmtE {K : Type} [Field K] [LinearOrder K] [IsStrictOrderedRing K] [FloorRing K] (p : Nat) (x : K) :
    Token (fmtE p x) := ⟨fmtE_ne_nil p x, fun c hc => numChar_not_ws (fmtE_chars p x c hc)⟩

theorem token_oneLine {t : Str} (h : Token t) : OneLine t :=
  ⟨fun hc => absurd (h.2 _ hc) (by decide), fun hc => absurd (h.2 _ hc) (by decide)⟩

theorem oneLine_append {a b : Str} (ha : OneLine a) (hb : OneLine b) : OneLine (a ++ b) := by
  unfold OneLine at *
  simp only [List.mem_append, not_or]
  exact ⟨⟨ha.1, hb.1⟩, ⟨ha.2, hb.2⟩⟩

theorem oneLine_spaces (n : Nat) : OneLine (List.replicate n ' ') :=
  ⟨fun h => absurd (List.mem_replicate.mp h).2 (by decide), fun h => absurd (List.mem_replicate.mp h).2 (by decide)⟩

theorem oneLine_rjust {w : Nat} {s : Str} (h : OneLine s) : OneLine (rjust w s) := oneLine_append (oneLine_spaces _) h

theorem join_space_fields : ∀ (t : Str) (l : List Str), join [' '] (t :: l) = t ++ fields (l.map (fun x => ([' '], x)))
  | t, [] => by simp [join, fields]
  | t, y :: l => by
    rw [join_cons2, join_space_fields y l]
    simp [fields]

/-- `' '.join(l).split()` -/
theorem splitWs_join {l : List Str} {tail : Str} (h : ∀ t ∈ l, Token t) (hb : Blank tail) :
    splitWs (join [' '] l ++ tail) = l := by
  cases l with
  | nil => simp [join, splitWs_blank hb]
  | cons t l =>
    rw [join_space_fields]
    have := splitWs_fields (a := []) (t := t) (tail := tail) (l := l.map (fun x => ([' '], x)))
      (by intro c hc; simp at hc) (h t List.mem_cons_self) (by
        intro p hp
        obtain ⟨x, hx, rfl⟩ := List.mem_map.mp hp
        exact ⟨by simp, blank_space, h x (List.mem_cons_of_mem _ hx)⟩) hb
    rw [List.nil_append] at this
    rw [this, List.map_map]
    congr 1
    exact List.map_id' l

/-- `(' '.join of padded numbers).split()` -/
theorem splitWs_join_rjust {w : Nat} {l : List Str} {tail : Str} (h : ∀ t ∈ l, Token t) (hb : Blank tail) :
    splitWs (join [' '] (l.map (rjust w)) ++ tail) = l := by
  cases l with
  | nil => simp [join, splitWs_blank hb]
  | cons t l =>
    rw [List.map_cons, join_space_fields]
    have e : fields ((l.map (rjust w)).map (fun x => ([' '], x))) =
        fields (l.map (fun x => (' ' :: List.replicate (w - x.length) ' ', x))) := by
      unfold fields rjust
      rw [List.map_map, List.flatMap_map, List.flatMap_map]
      simp
    rw [e]
    have := splitWs_fields (a := List.replicate (w - t.length) ' ') (t := t) (tail := tail)
      (l := l.map (fun x => (' ' :: List.replicate (w - x.length) ' ', x)))
      (blank_replicate _) (h t List.mem_cons_self) (by
        intro p hp
        obtain ⟨x, hx, rfl⟩ := List.mem_map.mp hp
        exact ⟨by simp, blank_replicate (w - x.length + 1), h x (List.mem_cons_of_mem _ hx)⟩) hb
    unfold rjust
    rw [this, List.map_map]
    congr 1
    exact List.map_id' l

end Verif.Py
