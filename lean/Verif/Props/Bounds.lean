import Verif.Model.Bounds
import Verif.Lemmas.Split

/-!
# Parameter ranges: the file round trip (C26) and setting a range (C27)
-/

set_option linter.unusedSectionVars false

namespace Verif.Bounds
open Verif.Py

variable {K : Type} [Field K] [LinearOrder K] [IsStrictOrderedRing K] [FloorRing K]

/-! ## Setting ranges -/

/-- what a caller asks for -/
structure Req (K : Type) where
  name : Str
  lower : Option K
  upper : Option K

def toLim : Option K → Lim K
  | .none => .none
  | some x => .num x

theorem toLim_value (o : Option K) : (toLim o).value = .ok o := by cases o <;> rfl

/-- a history of requests -/
def run (b : ParamBounds K) (l : List (Req K)) : Except BErr (ParamBounds K) :=
  l.foldlM (fun b r => setRange b r.name (toLim r.lower) (toLim r.upper)) b

/-- the last value asked for -/
def lastSome : List (Option K) → Option K
  | [] => none
  | o :: l => (lastSome l).or o

theorem get_store (d : Dict Str K) (n m : Str) (o : Option K) : (store d n o).get? m = if n = m then o.or (d.get? m) else d.get? m := by
  cases o with
  | none => simp [store]
  | some x =>
    unfold store
    rw [Dict.get?_set]
    by_cases h : n = m
    · subst h; simp
    · rw [if_neg h, if_neg (fun e => h e.symm)]

theorem setRange_eq (b : ParamBounds K) (r : Req K) : setRange b r.name (toLim r.lower) (toLim r.upper) =
    .ok { names := if r.name ∈ b.names then b.names else b.names ++ [r.name]
          lower := store b.lower r.name r.lower, upper := store b.upper r.name r.upper } := by
  unfold setRange; rw [toLim_value, toLim_value]; rfl

theorem run_cons (b : ParamBounds K) (r : Req K) (l : List (Req K)) :
    run b (r :: l) = run { names := if r.name ∈ b.names then b.names else b.names ++ [r.name]
                           lower := store b.lower r.name r.lower, upper := store b.upper r.name r.upper } l := by
  unfold run
  rw [List.foldlM_cons, setRange_eq]
  rfl

theorem or_assoc3 (a b c : Option K) : (a.or b).or c = a.or (b.or c) := by cases a <;> rfl

/-- **C27**: after any history of range settings each reported limit is the last one that was given for this parameter (a request
without a limit leaves it), and the names are listed once, in order of first mention. -/
theorem run_spec : ∀ (l : List (Req K)) (b : ParamBounds K), ∃ b', run b l = .ok b' ∧
    (∀ n, getLower b' n = (lastSome ((l.filter (fun r => r.name = n)).map (·.lower))).or (getLower b n)) ∧
    (∀ n, getUpper b' n = (lastSome ((l.filter (fun r => r.name = n)).map (·.upper))).or (getUpper b n)) ∧
    (∀ n, n ∈ b'.names ↔ n ∈ b.names ∨ ∃ r ∈ l, r.name = n) ∧ (b.names.Nodup → b'.names.Nodup) ∧ b.names <+: b'.names
  | [], b => ⟨b, rfl, by simp [lastSome], by simp [lastSome], by simp, id, List.prefix_refl _⟩
  | r :: l, b => by
    obtain ⟨b', h1, h2, h3, h4, h5, h6⟩ := run_spec l
      { names := if r.name ∈ b.names then b.names else b.names ++ [r.name]
        lower := store b.lower r.name r.lower, upper := store b.upper r.name r.upper }
    refine ⟨b', by rw [run_cons]; exact h1, ?_, ?_, ?_, ?_, ?_⟩
    · intro n
      rw [h2]
      unfold getLower
      dsimp only
      rw [get_store]
      by_cases h : r.name = n
      · rw [if_pos h, List.filter_cons_of_pos (by simpa using h), List.map_cons]
        simp only [lastSome, or_assoc3]
      · rw [if_neg h, List.filter_cons_of_neg (by simpa using h)]
    · intro n
      rw [h3]
      unfold getUpper
      dsimp only
      rw [get_store]
      by_cases h : r.name = n
      · rw [if_pos h, List.filter_cons_of_pos (by simpa using h), List.map_cons]
        simp only [lastSome, or_assoc3]
      · rw [if_neg h, List.filter_cons_of_neg (by simpa using h)]
    · intro n
      rw [h4]
      dsimp only
      by_cases h : r.name ∈ b.names
      · rw [if_pos h]
        constructor
        · rintro (h' | ⟨x, hx, h'⟩)
          · exact Or.inl h'
          · exact Or.inr ⟨x, List.mem_cons_of_mem _ hx, h'⟩
        · rintro (h' | ⟨x, hx, h'⟩)
          · exact Or.inl h'
          · rcases List.mem_cons.mp hx with rfl | hx
            · exact Or.inl (h' ▸ h)
            · exact Or.inr ⟨x, hx, h'⟩
      · rw [if_neg h]
        simp only [List.mem_append, List.mem_cons, List.not_mem_nil, or_false, exists_eq_or_imp]
        constructor
        · rintro ((h' | h') | h')
          · exact Or.inl h'
          · exact Or.inr (Or.inl h'.symm)
          · exact Or.inr (Or.inr h')
        · rintro (h' | h' | h')
          · exact Or.inl (Or.inl h')
          · exact Or.inl (Or.inr h'.symm)
          · exact Or.inr h'
    · intro hn
      apply h5
      dsimp only
      split
      · exact hn
      · rename_i h
        exact List.nodup_append'.mpr ⟨hn, by simp, by
          intro x hx hx2; rw [List.mem_singleton] at hx2; subst hx2; exact h hx⟩
    · refine List.IsPrefix.trans ?_ h6
      dsimp only
      split
      · exact List.prefix_refl _
      · exact List.prefix_append _ _

/-- **C27**: after setting a range with both limits these are reported, and nothing else changed. -/
theorem setRange_both (b : ParamBounds K) (n : Str) (lo hi : K) :
    ∃ b', setRange b n (.num lo) (.num hi) = .ok b' ∧ getLower b' n = some lo ∧ getUpper b' n = some hi ∧ n ∈ b'.names ∧
      (∀ m, m ≠ n → getLower b' m = getLower b m ∧ getUpper b' m = getUpper b m) := by
  refine ⟨_, rfl, ?_, ?_, ?_, ?_⟩
  · simp [getLower, get_store]
  · simp [getUpper, get_store]
  · dsimp only; split
    · assumption
    · simp
  · intro m hm
    have : ¬ n = m := fun e => hm e.symm
    simp [getLower, getUpper, get_store, this]

/-- **C27**: a parameter has a fixed value exactly if both limits exist and are equal. -/
theorem fixedValue_iff (b : ParamBounds K) (n : Str) (v : K) :
    fixedValue b n = some v ↔ getLower b n = some v ∧ getUpper b n = some v := by
  unfold fixedValue getLower getUpper
  cases b.lower.get? n with
  | none => simp
  | some l =>
    dsimp only
    cases b.upper.get? n with
    | none => simp
    | some u =>
      dsimp only
      by_cases h : u = l
      · subst h; simp
      · rw [if_neg h]
        simp only [reduceCtorEq, Option.some.injEq, false_iff, not_and]
        rintro rfl; exact h

/-- the dictionary of fixed values -/
theorem fixedValueDict_get (b : ParamBounds K) (n : Str) :
    (fixedValueDict b).get? n = if n ∈ b.names then fixedValue b n else none := by
  have key : ∀ (l : List Str) (d : Dict Str K), (l.foldl (fun d n => store d n (fixedValue b n)) d).get? n = if n ∈ l then (fixedValue b n).or (d.get? n) else d.get? n := by
    intro l
    induction l with
    | nil => intro d; simp
    | cons a l ih =>
      intro d
      rw [List.foldl_cons, ih]
      by_cases h : n = a
      · subst h
        rw [if_pos List.mem_cons_self]
        cases hf : fixedValue b n with
        | none => simp [store]
        | some v => simp [store, Dict.get?_set]
      · have hm : (n ∈ a :: l) ↔ n ∈ l := by simp [h]
        simp only [hm]
        cases hf : fixedValue b a with
        | none => rfl
        | some v => simp [store, Dict.get?_set, h]
  unfold fixedValueDict
  rw [key]
  simp

/-- **C27**: a limit cannot be removed: setting an unbounded range afterwards leaves the old limit. -/
theorem unset_fails : ∃ b b' : ParamBounds ℚ, setRange {} c!"x" (.num 1) (.num 2) = .ok b ∧
    setRange b c!"x" (.text c!"N") .inf = .ok b' ∧ getLower b' c!"x" = some 1 ∧ getUpper b' c!"x" = some 2 :=
  ⟨⟨[c!"x"], [(c!"x", 1)], [(c!"x", 2)]⟩, ⟨[c!"x"], [(c!"x", 1)], [(c!"x", 2)]⟩, by decide +kernel, by decide +kernel,
    by decide +kernel, by decide +kernel⟩

/-- **C27**: fixing a parameter and then giving it only an upper limit below leaves a range that contains nothing. -/
theorem empty_range_fails : ∃ b b' : ParamBounds ℚ, setFixed {} c!"x" 3 = .ok b ∧
    setRange b c!"x" .none (.num 2) = .ok b' ∧ getLower b' c!"x" = some 3 ∧ getUpper b' c!"x" = some 2 :=
  ⟨⟨[c!"x"], [(c!"x", 3)], [(c!"x", 3)]⟩, ⟨[c!"x"], [(c!"x", 3)], [(c!"x", 2)]⟩, by decide +kernel, by decide +kernel,
    by decide +kernel, by decide +kernel⟩

/-! ## The file -/

/-- what every sequence of settings gives: names once, limits only for listed names -/
structure Inv (b : ParamBounds K) : Prop where
  nodup : b.names.Nodup
  lower : ∀ n, getLower b n ≠ none → n ∈ b.names
  upper : ∀ n, getUpper b n ≠ none → n ∈ b.names

theorem lastSome_ne {l : List (Option K)} (h : lastSome l ≠ none) : l ≠ [] := by rintro rfl; exact h rfl

theorem run_inv {l : List (Req K)} {b : ParamBounds K} (h : run {} l = .ok b) : Inv b := by
  obtain ⟨b', h1, h2, h3, h4, h5, _⟩ := run_spec l {}
  rw [h] at h1
  cases h1
  refine ⟨h5 (by simp), ?_, ?_⟩
  · intro n hn
    rw [h2] at hn
    have e : getLower ({} : ParamBounds K) n = none := rfl
    rw [e, Option.or_none] at hn
    have := lastSome_ne hn
    obtain ⟨o, ho⟩ := List.exists_mem_of_ne_nil _ this
    obtain ⟨r, hr, _⟩ := List.mem_map.mp ho
    obtain ⟨hr1, hr2⟩ := List.mem_filter.mp hr
    exact (h4 n).mpr (Or.inr ⟨r, hr1, by simpa using hr2⟩)
  · intro n hn
    rw [h3] at hn
    have e : getUpper ({} : ParamBounds K) n = none := rfl
    rw [e, Option.or_none] at hn
    have := lastSome_ne hn
    obtain ⟨o, ho⟩ := List.exists_mem_of_ne_nil _ this
    obtain ⟨r, hr, _⟩ := List.mem_map.mp ho
    obtain ⟨hr1, hr2⟩ := List.mem_filter.mp hr
    exact (h4 n).mpr (Or.inr ⟨r, hr1, by simpa using hr2⟩)

/-- the word written for a limit -/
def word : Option K → Str
  | .none => c!"N"
  | some x => fmtE 7 x

theorem token_N : Token c!"N" := by decide

theorem word_token (o : Option K) : Token (word o) := by
  cases o with
  | none => exact token_N
  | some x => exact token_fmtE 7 x

/-- printed numbers have at most 15 characters here or more; the field always starts with at least two blanks -/
theorem fmtE_ne_N (x : K) : fmtE 7 x ≠ c!"N" := by
  intro h
  have := fmtE_chars 7 x 'N' (by rw [h]; decide)
  exact absurd this (by decide)

theorem word_value (o : Option K) : (Lim.text (word o) : Lim K).value = .ok (o.map (roundSig 7)) := by
  cases o with
  | none => rfl
  | some x =>
    unfold Lim.value word
    dsimp only
    have e : floatStr (fmtE 7 x) = some (roundSig 7 x) := by
      have := floatStr_fmtE 7 0 x
      unfold rjust at this
      simpa using this
    rw [if_neg (fmtE_ne_N x), e]
    rfl

/-- a limit in a field of 17 characters: blanks, then the word -/
theorem field_split (o : Option K) : ∃ k, rjust 17 (limText o) = List.replicate k ' ' ++ word o := by
  cases o with
  | none => exact ⟨16, by simp only [limText, word]; decide⟩
  | some x =>
    refine ⟨17 - (rjust 15 (fmtE 7 x)).length + (15 - (fmtE 7 x).length), ?_⟩
    unfold limText word
    dsimp only
    conv_lhs => unfold rjust
    rw [← List.replicate_append_replicate, List.append_assoc]
    rfl

/-- lengths of printed numbers: sign, `d.ddddddd`, `E`, sign of the exponent, and its digits -/
theorem length_fmtE (x : K) (h : x ≠ 0) : (fmtE 7 x).length =
    (if x < 0 then 1 else 0) + 10 + (expStr (sci 7 |x|).2).length := by
  have hl := length_sci 7 (abs_pos.mpr h)
  have hp : (pointed (strNat (sci 7 |x|).1)).length = 9 := by
    cases hs : strNat (sci 7 |x|).1 with
    | nil => exact absurd hs (strNat_ne_nil _)
    | cons c r =>
      rw [hs] at hl
      simp only [List.length_cons] at hl
      unfold pointed
      dsimp only
      rw [if_neg (by intro e; rw [List.isEmpty_iff] at e; rw [e] at hl; simp at hl)]
      simp only [List.length_cons]; omega
  unfold fmtE
  rw [if_neg h]
  simp only [List.length_append, List.length_cons, hp]
  split <;> simp <;> omega

/-- the number fits: exponents of at most three digits (all of python's floats) -/
def Fits (x : K) : Prop := x = 0 ∨ (sci 7 |x|).2.natAbs < 1000

theorem length_expStr {e : Int} (h : e.natAbs < 1000) : (expStr e).length ≤ 4 := by
  unfold expStr
  split
  · split <;> (simp only [List.length_cons]; try omega)
    · have : (strNat e.natAbs).length ≤ 1 := (Nat.length_toDigits_le_iff (by norm_num) (by norm_num)).mpr (by omega)
      omega
    · have : (strNat e.natAbs).length ≤ 3 := (Nat.length_toDigits_le_iff (by norm_num) (by norm_num)).mpr (by omega)
      omega
  · split <;> (simp only [List.length_cons]; try omega)
    · have : (strNat e.natAbs).length ≤ 1 := (Nat.length_toDigits_le_iff (by norm_num) (by norm_num)).mpr (by omega)
      omega
    · have : (strNat e.natAbs).length ≤ 3 := (Nat.length_toDigits_le_iff (by norm_num) (by norm_num)).mpr (by omega)
      omega

theorem length_fits {x : K} (h : Fits x) : (fmtE 7 x).length ≤ 15 := by
  by_cases h0 : x = 0
  · subst h0
    have : fmtE 7 (0 : K) = c!"0.0000000E+00" := by
      unfold fmtE; rw [if_neg (lt_irrefl _), if_pos rfl]; decide
    rw [this]; decide
  · rcases h with h | h
    · exact absurd h h0
    · rw [length_fmtE x h0]
      have := length_expStr h
      split <;> omega

/-- a limit in a field of 17 characters starts with a blank -/
theorem field_pad {o : Option K} (h : ∀ x, o = some x → Fits x) :
    ∃ k, 0 < k ∧ rjust 17 (limText o) = List.replicate k ' ' ++ word o := by
  cases o with
  | none => exact ⟨16, by decide, by simp only [limText, word]; decide⟩
  | some x =>
    have hl := length_fits (h x rfl)
    refine ⟨17 - (rjust 15 (fmtE 7 x)).length + (15 - (fmtE 7 x).length), ?_, ?_⟩
    · unfold rjust; simp only [List.length_append, List.length_replicate]; omega
    · unfold limText word
      dsimp only
      conv_lhs => unfold rjust
      rw [← List.replicate_append_replicate, List.append_assoc]
      rfl

theorem splitWs_line {b : ParamBounds K} {n : Str} (hn : Token n) (hl : ∀ x, getLower b n = some x → Fits x)
    (hu : ∀ x, getUpper b n = some x → Fits x) :
    splitWs (lineOf b n ++ ['\n']) = [n, word (getLower b n), word (getUpper b n)] := by
  obtain ⟨k1, p1, e1⟩ := field_pad hl
  obtain ⟨k2, p2, e2⟩ := field_pad hu
  unfold lineOf
  rw [e1, e2]
  have := splitWs_fields (a := List.replicate (22 - n.length) ' ') (t := n) (tail := ['\n'])
    (l := [(List.replicate k1 ' ', word (getLower b n)), (List.replicate k2 ' ', word (getUpper b n))])
    (blank_replicate _) hn (by
      intro p hp
      simp only [List.mem_cons, List.not_mem_nil, or_false] at hp
      rcases hp with rfl | rfl
      · exact ⟨by intro e; rw [List.replicate_eq_nil_iff] at e; omega, blank_replicate _, word_token _⟩
      · exact ⟨by intro e; rw [List.replicate_eq_nil_iff] at e; omega, blank_replicate _, word_token _⟩) blank_nl
  rw [show rjust 22 n = List.replicate (22 - n.length) ' ' ++ n from rfl]
  simpa [fields] using this

theorem lineOf_oneLine {b : ParamBounds K} {n : Str} (hn : Token n) : OneLine (lineOf b n) := by
  obtain ⟨k1, e1⟩ := field_split (getLower b n)
  obtain ⟨k2, e2⟩ := field_split (getUpper b n)
  unfold lineOf
  rw [e1, e2]
  exact oneLine_append (oneLine_append (oneLine_rjust (token_oneLine hn))
    (oneLine_append (oneLine_spaces _) (token_oneLine (word_token _))))
    (oneLine_append (oneLine_spaces _) (token_oneLine (word_token _)))

theorem readLine_line {b c : ParamBounds K} {n : Str} (hn : Token n) (hl : ∀ x, getLower b n = some x → Fits x)
    (hu : ∀ x, getUpper b n = some x → Fits x) :
    readLine c (lineOf b n ++ ['\n']) =
      setRange c n (toLim ((getLower b n).map (roundSig 7))) (toLim ((getUpper b n).map (roundSig 7))) := by
  unfold readLine
  rw [splitWs_line hn hl hu]
  dsimp only
  unfold setRange
  rw [word_value, word_value, toLim_value, toLim_value]

theorem read_lines {b : ParamBounds K} (hfit : ∀ n x, getLower b n = some x ∨ getUpper b n = some x → Fits x) :
    ∀ (l : List Str) (c : ParamBounds K), (∀ n ∈ l, Token n) →
      (l.map (fun n => lineOf b n ++ ['\n'])).foldlM readLine c =
        run c (l.map (fun n => ⟨n, (getLower b n).map (roundSig 7), (getUpper b n).map (roundSig 7)⟩))
  | [], _, _ => rfl
  | n :: l, c, h => by
    rw [List.map_cons, List.foldlM_cons, List.map_cons]
    unfold run
    rw [List.foldlM_cons]
    rw [readLine_line (h n List.mem_cons_self) (fun x hx => hfit n x (Or.inl hx)) (fun x hx => hfit n x (Or.inr hx))]
    rw [setRange_eq c ⟨n, (getLower b n).map (roundSig 7), (getUpper b n).map (roundSig 7)⟩]
    exact read_lines hfit l _ (fun m hm => h m (List.mem_cons_of_mem _ hm))

theorem filter_names {l : List Str} (hn : l.Nodup) (n : Str) (f g : Str → Option K) :
    (l.map (fun n => (⟨n, f n, g n⟩ : Req K))).filter (fun r => r.name = n) = if n ∈ l then [⟨n, f n, g n⟩] else [] := by
  induction l with
  | nil => simp
  | cons a l ih =>
    obtain ⟨h1, h2⟩ := List.nodup_cons.mp hn
    rw [List.map_cons]
    by_cases h : a = n
    · subst h
      rw [List.filter_cons_of_pos (by simp), ih h2, if_neg h1, if_pos List.mem_cons_self]
    · rw [List.filter_cons_of_neg (by simpa using h), ih h2]
      have : (n ∈ a :: l) ↔ n ∈ l := by simp [Ne.symm h]
      simp only [this]

theorem run_names : ∀ (l : List (Req K)) (b b' : ParamBounds K), run b l = .ok b' → (b.names ++ l.map (·.name)).Nodup →
    b'.names = b.names ++ l.map (·.name)
  | [], b, b', h, _ => by cases h; simp
  | r :: l, b, b', h, hn => by
    rw [run_cons] at h
    have hr : r.name ∉ b.names := by
      intro hr
      have := (List.nodup_append'.mp hn).2.2
      exact this hr (by simp)
    rw [if_neg hr] at h
    have := run_names l _ b' h (by
      dsimp only
      rw [List.append_assoc]; exact hn)
    rw [this]
    simp

/-- **C26**: ranges written to a file and read again have the same parameters in the same order; each limit is the old one rounded
to eight significant digits, and unbounded sides stay unbounded. -/
theorem save_load {b : ParamBounds K} (hi : Inv b) (ht : ∀ n ∈ b.names, Token n)
    (hfit : ∀ n x, getLower b n = some x ∨ getUpper b n = some x → Fits x) :
    ∃ b', ofText (toText b) = .ok b' ∧ b'.names = b.names ∧
      (∀ n, getLower b' n = (getLower b n).map (roundSig 7)) ∧ (∀ n, getUpper b' n = (getUpper b n).map (roundSig 7)) := by
  have e : ofText (toText b) = run {} (b.names.map (fun n => ⟨n, (getLower b n).map (roundSig 7), (getUpper b n).map (roundSig 7)⟩)) := by
    unfold ofText toText
    rw [fileIter_terminated]
    · rw [List.map_map]
      exact read_lines hfit b.names {} ht
    · intro l hl
      obtain ⟨n, hn, rfl⟩ := List.mem_map.mp hl
      exact lineOf_oneLine (ht n hn)
  obtain ⟨b', h1, h2, h3, _, _, _⟩ := run_spec
    (b.names.map (fun n => (⟨n, (getLower b n).map (roundSig 7), (getUpper b n).map (roundSig 7)⟩ : Req K))) {}
  refine ⟨b', by rw [e]; exact h1, ?_, ?_, ?_⟩
  · have := run_names _ {} b' h1 (by simp [Function.comp_def]; exact hi.nodup)
    rw [this]
    simp [Function.comp_def]
  · intro n
    rw [h2, filter_names hi.nodup n (fun n => (getLower b n).map (roundSig 7)) (fun n => (getUpper b n).map (roundSig 7))]
    have e0 : getLower ({} : ParamBounds K) n = none := rfl
    rw [e0, Option.or_none]
    by_cases hn : n ∈ b.names
    · rw [if_pos hn]; simp [lastSome]
    · rw [if_neg hn]
      have : getLower b n = none := by
        by_contra hc; exact hn (hi.lower n hc)
      rw [this]; rfl
  · intro n
    rw [h3, filter_names hi.nodup n (fun n => (getLower b n).map (roundSig 7)) (fun n => (getUpper b n).map (roundSig 7))]
    have e0 : getUpper ({} : ParamBounds K) n = none := rfl
    rw [e0, Option.or_none]
    by_cases hn : n ∈ b.names
    · rw [if_pos hn]; simp [lastSome]
    · rw [if_neg hn]
      have : getUpper b n = none := by
        by_contra hc; exact hn (hi.upper n hc)
      rw [this]; rfl

/-- **C26**: consequences: a fixed parameter stays fixed, and a lower limit below the upper one does not cross it. -/
theorem save_load_order {b b' : ParamBounds K} (hi : Inv b) (ht : ∀ n ∈ b.names, Token n)
    (hfit : ∀ n x, getLower b n = some x ∨ getUpper b n = some x → Fits x) (h : ofText (toText b) = .ok b') (n : Str) :
    (∀ v, fixedValue b n = some v → fixedValue b' n = some (roundSig 7 v)) ∧
    (∀ l u, getLower b n = some l → getUpper b n = some u → l ≤ u →
      ∃ l' u', getLower b' n = some l' ∧ getUpper b' n = some u' ∧ l' ≤ u') := by
  obtain ⟨b2, h1, _, h3, h4⟩ := save_load hi ht hfit
  rw [h] at h1
  cases h1
  constructor
  · intro v hv
    rw [fixedValue_iff] at hv ⊢
    rw [h3, h4, hv.1, hv.2]
    exact ⟨rfl, rfl⟩
  · intro l u hl hu hlu
    exact ⟨_, _, by rw [h3, hl]; rfl, by rw [h4, hu]; rfl, roundSig_mono 7 hlu⟩

/-! ## Examples and failures -/

def exB : ParamBounds ℚ := ⟨[c!"ns", c!"mnu"], [(c!"ns", 4 / 5), (c!"mnu", 0)], [(c!"ns", 6 / 5)]⟩

example : (ofText (toText exB) : Except BErr (ParamBounds ℚ)) = .ok exB := by decide +kernel
example : Inv exB := run_inv (l := [⟨c!"ns", some (4 / 5), some (6 / 5)⟩, ⟨c!"mnu", some 0, none⟩]) (by decide +kernel)
example : Fits (6 / 5 : ℚ) := Or.inr (by decide +kernel)
example : (run ({} : ParamBounds ℚ) [⟨c!"a", some 1, none⟩, ⟨c!"b", none, none⟩, ⟨c!"a", none, some 2⟩]).map
    (fun b => (b.names, getLower b c!"a", getUpper b c!"a", fixedValue b c!"a")) = .ok ([c!"a", c!"b"], some 1, some 2, none) := by
  decide +kernel

/-- **C26**: a narrow range becomes a fixed value. -/
theorem narrow_range_fails : ∃ b b' : ParamBounds ℚ, run {} [⟨c!"x", some 1, some (1 + 1 / 10 ^ 9)⟩] = .ok b ∧
    fixedValue b c!"x" = none ∧ ofText (toText b) = .ok b' ∧ fixedValue b' c!"x" = some 1 :=
  ⟨⟨[c!"x"], [(c!"x", 1)], [(c!"x", 1 + 1 / 10 ^ 9)]⟩, ⟨[c!"x"], [(c!"x", 1)], [(c!"x", 1)]⟩, by decide +kernel, by decide +kernel,
    by decide +kernel, by decide +kernel⟩

/-- **C26**: a parameter whose name is not a single word is dropped, or read as another. -/
theorem blank_name_fails : ∃ b : ParamBounds ℚ, run {} [⟨c!"my par", some 1, none⟩, ⟨c!"", some 0, some 2⟩] = .ok b ∧
    (ofText (toText b) : Except BErr (ParamBounds ℚ)) = .ok {} :=
  ⟨⟨[c!"my par", c!""], [(c!"my par", 1), (c!"", 0)], [(c!"", 2)]⟩, by decide +kernel, by decide +kernel⟩

end Verif.Bounds
