import Verif.Model.LikeTable
import Verif.Props.MargeStats
import Verif.Props.BestFit

/-!
# C273, C274: the text of the likelihood statistics
-/

namespace Verif.LikeTable
open Verif.Py Verif.MargeStats Verif.BestFit

/-- a row that can be told apart into columns again -/
structure Row.Ok (r : Row) : Prop where
  name : Token r.name
  label : r.label ≠ [] ∧ Trim r.label
  best : Short r.best
  bot : ∀ x ∈ r.bot, Short x
  top : ∀ x ∈ r.top, Short x

theorem tagged_token {r : Row} (h : Token r.name) : Token (tagged r) := by
  have := printedName_token (K := ℚ) (p := ⟨r.name, r.label, r.isDerived, 0, 0, []⟩) h
  exact this

theorem label_split {label : Str} (hl : label ≠ [] ∧ Trim label) : splitWsN 0 (c!"   " ++ (label ++ ['\n'])) = [label ++ ['\n']] := by
  have e : lstrip (label ++ ['\n']) = label ++ ['\n'] := by
    apply lstrip_eq_self
    intro c hc
    cases label with
    | nil => exact absurd rfl hl.1
    | cons x xs => exact hl.2.1 c (by simpa using hc)
  rw [splitWsN_blank blank3]
  unfold splitWsN
  rw [e, if_neg (by simp)]

/-- **C273** The line of a parameter splits at its blanks into the name (with a star if derived), the value at the best sample, the lower
and upper extreme of the first region, those of the second region, and the label; every number reads back as itself to eight figures. -/
theorem row_spec {w : Nat} {r : Row} {b0 b1 t0 t1 : ℚ} {bs ts : List ℚ} (h : r.Ok) (hb : r.bot = b0 :: b1 :: bs) (ht : r.top = t0 :: t1 :: ts) :
    ∃ l, rowLine w r = .ok l ∧
      (splitWsN 6 l).map strip = [if r.isDerived then r.name ++ ['*'] else r.name, fmtE 7 r.best, fmtE 7 b0, fmtE 7 t0, fmtE 7 b1,
        fmtE 7 t1, r.label] ∧
      ∀ x : ℚ, (floatStr (fmtE 7 x) : Option ℚ) = some (roundSig 7 x) := by
  have s0 : Short b0 := h.bot _ (by rw [hb]; simp)
  have s1 : Short b1 := h.bot _ (by rw [hb]; simp)
  have u0 : Short t0 := h.top _ (by rw [ht]; simp)
  have u1 : Short t1 := h.top _ (by rw [ht]; simp)
  refine ⟨ljust w (tagged r) ++ num r.best ++ num b0 ++ num t0 ++ num b1 ++ num t1 ++ c!"   " ++ r.label ++ ['\n'], ?_, ?_, floatStr_fmt7⟩
  · unfold rowLine
    rw [hb, ht]
    rfl
  · have hsep : Sep (List.replicate (w - (tagged r).length) ' ' ++ (num r.best ++ (num b0 ++ (num t0 ++ (num b1 ++ (num t1 ++
        (c!"   " ++ (r.label ++ ['\n'])))))))) := by
      rcases Nat.eq_zero_or_pos (w - (tagged r).length) with h0 | h0
      · rw [h0]; exact num_sep h.best _
      · exact sep_spaces h0 _
    have e : ljust w (tagged r) ++ num r.best ++ num b0 ++ num t0 ++ num b1 ++ num t1 ++ c!"   " ++ r.label ++ ['\n'] =
        tagged r ++ (List.replicate (w - (tagged r).length) ' ' ++ (num r.best ++ (num b0 ++ (num t0 ++ (num b1 ++ (num t1 ++
          (c!"   " ++ (r.label ++ ['\n']))))))))  := by
      unfold ljust
      simp only [List.append_assoc]
    rw [e, splitWsN_tok (tagged_token h.name) hsep, splitWsN_blank (blank_replicate _), splitWsN_num h.best (num_sep s0 _),
      splitWsN_num s0 (num_sep u0 _), splitWsN_num u0 (num_sep s1 _), splitWsN_num s1 (num_sep u1 _),
      splitWsN_num u1 (r := c!"   " ++ _) (sep_spaces (n := 3) (by norm_num) _), label_split h.label]
    have hstok : ∀ t : Str, Token t → strip t = t := fun t ht => strip_eq_self (trim_token ht)
    simp only [List.map_cons, List.map_nil]
    rw [hstok _ (tagged_token h.name), hstok _ (token_fmtE 7 _), hstok _ (token_fmtE 7 _), hstok _ (token_fmtE 7 _),
      hstok _ (token_fmtE 7 _), hstok _ (token_fmtE 7 _), strip_append_ws _ _ (by decide), strip_eq_self h.label.2]
    rfl

example : (rowLine 10 ⟨c!"H0", c!"H_0", true, 67, [66, 65], [68, 69]⟩).toOption.map (fun l => (splitWsN 6 l).map strip) =
    some [c!"H0*", c!"6.7000000E+01", c!"6.6000000E+01", c!"6.8000000E+01", c!"6.5000000E+01", c!"6.9000000E+01", c!"H_0"] := by
  decide +kernel

theorem rowLines_spec {w : Nat} : ∀ {rs : List Row} {ls : List Str}, rowLines w rs = .ok ls →
    ls.length = rs.length ∧ ∀ (i : Nat) r, rs[i]? = some r → ∃ l, ls[i]? = some l ∧ rowLine w r = .ok l
  | [], ls, h => by
    injection h with h
    subst h
    exact ⟨rfl, by simp⟩
  | r :: rs, ls, h => by
    unfold rowLines at h
    split at h
    · cases h
    · rename_i l e
      split at h
      · cases h
      · rename_i ls' e'
        injection h with h
        subst h
        obtain ⟨h1, h2⟩ := rowLines_spec e'
        refine ⟨by rw [List.length_cons, List.length_cons, h1], fun i r' hi => ?_⟩
        cases i with
        | zero =>
          simp only [List.getElem?_cons_zero, Option.some.injEq] at hi
          subst hi
          exact ⟨l, rfl, e⟩
        | succ i => exact h2 i r' hi

theorem rowLines_ok {w : Nat} : ∀ {rs : List Row}, (∀ r ∈ rs, 2 ≤ r.bot.length ∧ 2 ≤ r.top.length) → ∃ ls, rowLines w rs = .ok ls
  | [], _ => ⟨[], rfl⟩
  | r :: rs, h => by
    obtain ⟨ls, e⟩ := rowLines_ok (w := w) (rs := rs) (fun r hr => h r (List.mem_cons_of_mem _ hr))
    obtain ⟨hb, ht⟩ := h r List.mem_cons_self
    have : ∃ l, rowLine w r = .ok l := by
      unfold rowLine
      rw [List.getElem?_eq_getElem (show 0 < r.bot.length by omega), List.getElem?_eq_getElem (show 0 < r.top.length by omega),
        List.getElem?_eq_getElem (show 1 < r.bot.length by omega), List.getElem?_eq_getElem (show 1 < r.top.length by omega)]
      exact ⟨_, rfl⟩
    obtain ⟨l, e'⟩ := this
    exact ⟨l :: ls, by unfold rowLines; rw [e', e]⟩

theorem foldr_max_ge : ∀ {l : List Nat} {x : Nat}, x ∈ l → x ≤ l.foldr max 0
  | [], _, h => by simp at h
  | a :: l, x, h => by
    rcases List.mem_cons.mp h with rfl | h
    · exact le_max_left _ _
    · exact le_trans (foldr_max_ge h) (le_max_right _ _)

theorem foldr_max_mem : ∀ {l : List Nat}, l ≠ [] → l.foldr max 0 ∈ l
  | [], h => absurd rfl h
  | [a], _ => by simp
  | a :: b :: l, _ => by
    have := foldr_max_mem (l := b :: l) (by simp)
    rw [List.foldr_cons]
    rcases le_total a ((b :: l).foldr max 0) with h | h
    · rw [max_eq_right h]; exact List.mem_cons_of_mem _ this
    · rw [max_eq_left h]; exact List.mem_cons_self

/-- **C273** With at least one parameter, each having two regions, the text is the summary, an empty line, the header and one line per
parameter in order; the first column is one wider than the longest name and at least ten, so that every name fits with its star. -/
theorem text_spec {s : Stats} (h0 : s.names ≠ []) (h2 : ∀ r ∈ s.names, 2 ≤ r.bot.length ∧ 2 ≤ r.top.length) :
    ∃ w ls, text s = .ok (likeSummary s.best s.meanInv s.mean s.meanLike ++ (['\n'] :: header w :: ls)) ∧
      ls.length = s.names.length ∧ (∀ (i : Nat) r, s.names[i]? = some r → ∃ l, ls[i]? = some l ∧ rowLine w r = .ok l) ∧
      10 ≤ w ∧ (∀ r ∈ s.names, r.name.length + 1 ≤ w) ∧ (w = 10 ∨ ∃ r ∈ s.names, w = r.name.length + 1) := by
  obtain ⟨ls, e⟩ := rowLines_ok (w := max 9 ((s.names.map (fun r => r.name.length)).foldr max 0) + 1) h2
  obtain ⟨e1, e2⟩ := rowLines_spec e
  refine ⟨_, ls, ?_, e1, e2, ?_, ?_, ?_⟩
  · unfold text width
    rw [if_neg h0]
    dsimp only
    rw [if_neg (by simpa using h0), e]
  · have := le_max_left 9 ((s.names.map (fun r => r.name.length)).foldr max 0)
    omega
  · intro r hr
    have h1 := foldr_max_ge (List.mem_map_of_mem (f := fun r : Row => r.name.length) hr)
    have h3 := le_max_right 9 ((s.names.map (fun r => r.name.length)).foldr max 0)
    omega
  · have hm := foldr_max_mem (l := s.names.map (fun r => r.name.length)) (by simpa using h0)
    obtain ⟨r, hr, er⟩ := List.mem_map.mp hm
    rcases le_total 9 ((s.names.map (fun r => r.name.length)).foldr max 0) with h | h
    · right
      exact ⟨r, hr, by rw [max_eq_right h, ← er]⟩
    · left
      rw [max_eq_left h]

theorem rjust_length {n : Nat} {s : Str} (h : s.length ≤ n) : (rjust n s).length = n := by
  unfold rjust
  rw [List.length_append, List.length_replicate]
  omega

theorem slice3 {a b c : Str} {k n : Nat} (ha : a.length = k) (hb : b.length = n) : ((a ++ (b ++ c)).drop k).take n = b := by
  subst ha hb
  rw [List.drop_left, List.take_left]

/-- **C273** Columns line up: in the line of any parameter of the table the `j`-th number stands in the fifteen characters from
`w + 15 j` on (numbers of at most fifteen characters), and the label begins three characters after the fifth. -/
theorem columns_spec {w : Nat} {r : Row} {b0 b1 t0 t1 : ℚ} {bs ts : List ℚ} {l : Str} (hb : r.bot = b0 :: b1 :: bs)
    (ht : r.top = t0 :: t1 :: ts) (hw : r.name.length + 1 ≤ w) (hs : ∀ x ∈ [r.best, b0, t0, b1, t1], (fmtE 7 x).length ≤ 15)
    (h : rowLine w r = .ok l) :
    (∀ (j : Nat) x, [r.best, b0, t0, b1, t1][j]? = some x → (l.drop (w + 15 * j)).take 15 = rjust 15 (fmtE 7 x)) ∧
    l.drop (w + 78) = r.label ++ ['\n'] := by
  unfold rowLine at h
  rw [hb, ht] at h
  injection h with h
  have hn : ∀ x ∈ [r.best, b0, t0, b1, t1], (num x).length = 15 := fun x hx => rjust_length (hs x hx)
  have n0 := hn r.best (by simp)
  have n1 := hn b0 (by simp)
  have n2 := hn t0 (by simp)
  have n3 := hn b1 (by simp)
  have n4 := hn t1 (by simp)
  have ht' : (tagged r).length ≤ w := by
    unfold tagged
    split
    · rw [List.length_append]; exact hw
    · omega
  have hl : (ljust w (tagged r)).length = w := by
    unfold ljust
    rw [List.length_append, List.length_replicate]
    omega
  generalize ljust w (tagged r) = a at h hl
  subst h
  constructor
  · intro j x hx
    match j, hx with
    | 0, hx =>
      injection hx with hx; subst hx
      rw [show a ++ num r.best ++ num b0 ++ num t0 ++ num b1 ++ num t1 ++ c!"   " ++ r.label ++ ['\n'] =
        a ++ (num r.best ++ (num b0 ++ num t0 ++ num b1 ++ num t1 ++ c!"   " ++ r.label ++ ['\n'])) by simp only [List.append_assoc]]
      exact slice3 (by omega) n0
    | 1, hx =>
      injection hx with hx; subst hx
      rw [show a ++ num r.best ++ num b0 ++ num t0 ++ num b1 ++ num t1 ++ c!"   " ++ r.label ++ ['\n'] =
        (a ++ num r.best) ++ (num b0 ++ (num t0 ++ num b1 ++ num t1 ++ c!"   " ++ r.label ++ ['\n'])) by simp only [List.append_assoc]]
      exact slice3 (by rw [List.length_append]; omega) n1
    | 2, hx =>
      injection hx with hx; subst hx
      rw [show a ++ num r.best ++ num b0 ++ num t0 ++ num b1 ++ num t1 ++ c!"   " ++ r.label ++ ['\n'] =
        (a ++ num r.best ++ num b0) ++ (num t0 ++ (num b1 ++ num t1 ++ c!"   " ++ r.label ++ ['\n'])) by simp only [List.append_assoc]]
      exact slice3 (by simp only [List.length_append]; omega) n2
    | 3, hx =>
      injection hx with hx; subst hx
      rw [show a ++ num r.best ++ num b0 ++ num t0 ++ num b1 ++ num t1 ++ c!"   " ++ r.label ++ ['\n'] =
        (a ++ num r.best ++ num b0 ++ num t0) ++ (num b1 ++ (num t1 ++ c!"   " ++ r.label ++ ['\n'])) by simp only [List.append_assoc]]
      exact slice3 (by simp only [List.length_append]; omega) n3
    | 4, hx =>
      injection hx with hx; subst hx
      rw [show a ++ num r.best ++ num b0 ++ num t0 ++ num b1 ++ num t1 ++ c!"   " ++ r.label ++ ['\n'] =
        (a ++ num r.best ++ num b0 ++ num t0 ++ num b1) ++ (num t1 ++ (c!"   " ++ r.label ++ ['\n'])) by simp only [List.append_assoc]]
      exact slice3 (by simp only [List.length_append]; omega) n4
    | j + 5, hx => simp at hx
  · rw [show a ++ num r.best ++ num b0 ++ num t0 ++ num b1 ++ num t1 ++ c!"   " ++ r.label ++ ['\n'] =
      (a ++ num r.best ++ num b0 ++ num t0 ++ num b1 ++ num t1 ++ c!"   ") ++ (r.label ++ ['\n']) by simp only [List.append_assoc]]
    rw [show w + 78 = (a ++ num r.best ++ num b0 ++ num t0 ++ num b1 ++ num t1 ++ c!"   ").length by
      simp only [List.length_append]; rw [show (c!"   ").length = 3 from rfl]; omega, List.drop_left]

example : (text ⟨25 / 2, none, 27 / 2, 51 / 4, [⟨c!"omegabh2", c!"b", false, 1 / 50, [1 / 60, 1 / 70], [1 / 40, 1 / 30]⟩,
      ⟨c!"H0", c!"H_0", true, 67, [66, 65], [68, 69]⟩]⟩).toOption.map (fun t => t.drop 3) =
    some [c!"\n", c!"parameter   bestfit        lower1         upper1         lower2         upper2\n",
      c!"omegabh2    2.0000000E-02  1.6666667E-02  2.5000000E-02  1.4285714E-02  3.3333333E-02   b\n",
      c!"H0*         6.7000000E+01  6.6000000E+01  6.8000000E+01  6.5000000E+01  6.9000000E+01   H_0\n"] := by decide +kernel

/-- **C273** Whenever the text can be made, reading it back gives the likelihoods of the summary to the printed digits. -/
theorem text_read {s : Stats} {t : List Str} (h : text s = .ok t) :
    ∃ v, loadStats t = .ok v ∧ Near v.best s.best ∧ Near v.mean s.mean ∧ Near v.meanLike s.meanLike ∧
      (∀ x, s.meanInv = some x → x ≠ 0 → Near v.meanInv x) ∧ (s.meanInv = none → v.meanInv = none) := by
  unfold text at h
  split at h
  · cases h
  · split at h
    · injection h with h
      subst h
      have := summary_read s.best s.mean s.meanLike s.meanInv [] (.inl rfl)
      rwa [List.append_nil] at this
    · split at h
      · cases h
      · injection h with h
        subst h
        exact summary_read s.best s.mean s.meanLike s.meanInv _ (.inr ⟨['\n'], _, by intro c hc; rw [List.mem_singleton] at hc; subst hc; decide, rfl⟩)

/-! ## What fails -/

/-- **C274 fails**: statistics without parameters, in particular any that were read from a file (types.py:834-850 sets no names), cannot be
turned into text: the width of the name column is computed before looking whether there are names (types.py:868-869), and `max` of an empty
list raises.  The guard `if len(self.names)` never helps. -/
theorem empty_text_fails : (∀ s : Stats, s.names = [] → text s = .error .value) ∧
    (∀ v s, loaded v = some s → text s = .error .value) ∧
    ∀ s t, text s = .ok t → t ≠ likeSummary s.best s.meanInv s.mean s.meanLike := by
  have h1 : ∀ s : Stats, s.names = [] → text s = .error .value := by
    intro s h
    unfold text width
    rw [if_pos h]
  refine ⟨h1, ?_, ?_⟩
  · intro v s h
    unfold loaded at h
    split at h
    · injection h with h
      subst h
      exact h1 _ rfl
    · cases h
  · intro s t h e
    by_cases h0 : s.names = []
    · rw [h1 s h0] at h; cases h
    · unfold text width at h
      rw [if_neg h0] at h
      dsimp only at h
      rw [if_neg (by simpa using h0)] at h
      split at h
      · cases h
      · injection h with h
        rw [← h] at e
        have := congrArg List.length e
        simp at this

/-- **C274 fails**: the extremes of the regions do not come back: two statistics that agree in the summary are read back the same
(types.py:836-838 stops at the empty line, 850 "TODO"). -/
theorem limits_lost_fails : ∃ s s' : Stats, ∃ t t', text s = .ok t ∧ text s' = .ok t' ∧ t ≠ t' ∧ s.names.map (·.bot) ≠ s'.names.map (·.bot) ∧
    loadStats t = loadStats t' :=
  ⟨⟨1, none, 2, 3, [⟨c!"a", c!"a", false, 1, [0, 0], [2, 2]⟩]⟩, ⟨1, none, 2, 3, [⟨c!"a", c!"a", false, 1, [-1, -2], [2, 2]⟩]⟩,
    _, _, rfl, rfl, by decide +kernel, by decide +kernel, by decide +kernel⟩

/-- **C274 fails**: negative numbers with exponents of three digits fill their fifteen characters and run together with what is before
(types.py:874 `%15.7E%15.7E`), so the line has too few columns. -/
theorem run_together_fails : ∃ l, rowLine 10 ⟨c!"a", c!"A", false, 1, [-1 / 10 ^ 120, -2 / 10 ^ 120], [-1 / 10 ^ 121, 1]⟩ = .ok l ∧
    (splitWsN 6 l).map strip = [c!"a", c!"1.0000000E+00-1.0000000E-120-1.0000000E-121-2.0000000E-120", c!"1.0000000E+00", c!"A"] :=
  ⟨_, rfl, by decide +kernel⟩

/-- **C274**, the part that holds: numbers with exponents of at most two digits keep the columns apart, and the likelihoods of the summary
come back.  Missing: exponents of three digits, the extremes themselves, and statistics without parameters (refuted above). -/
theorem text_read_partial {s : Stats} (h0 : s.names ≠ []) (hs : ∀ r ∈ s.names, Token r.name ∧ (r.label ≠ [] ∧ Trim r.label) ∧
      ∃ b0 b1 t0 t1, r.bot = [b0, b1] ∧ r.top = [t0, t1] ∧ ∀ x ∈ [r.best, b0, b1, t0, t1], x = 0 ∨ (sci 7 |x|).2.natAbs < 100) :
    ∃ t v, text s = .ok t ∧ loadStats t = .ok v ∧ Near v.best s.best ∧ Near v.mean s.mean ∧ Near v.meanLike s.meanLike ∧
      ∀ r ∈ s.names, ∃ l ∈ t, ((splitWsN 6 l).map strip).length = 7 := by
  obtain ⟨w, ls, e, hl, hr, _⟩ := text_spec h0 (fun r hr => by
    obtain ⟨_, _, b0, b1, t0, t1, hb, ht, _⟩ := hs r hr
    rw [hb, ht]
    exact ⟨le_refl _, le_refl _⟩)
  obtain ⟨v, e1, e2, e3, e4, _⟩ := text_read e
  refine ⟨_, v, e, e1, e2, e3, e4, fun r hm => ?_⟩
  obtain ⟨hn, hla, b0, b1, t0, t1, hb, ht, hx⟩ := hs r hm
  have sh : ∀ x ∈ [r.best, b0, b1, t0, t1], Short x := fun x hm => short_of ((hx x hm).imp id .inl)
  have ok : r.Ok := ⟨hn, hla, sh _ (by simp), fun x h => sh x (by rw [hb] at h; simp at h ⊢; tauto),
    fun x h => sh x (by rw [ht] at h; simp at h ⊢; tauto)⟩
  obtain ⟨i, hi⟩ := List.getElem?_of_mem hm
  obtain ⟨l, hli, hrow⟩ := hr i r hi
  obtain ⟨l', hrow', hsp, _⟩ := row_spec (w := w) ok hb ht
  rw [hrow] at hrow'
  injection hrow' with hrow'
  subst hrow'
  exact ⟨l, List.mem_append_right _ (List.mem_cons_of_mem _ (List.mem_cons_of_mem _ (List.mem_of_getElem? hli))), by rw [hsp]; rfl⟩

/-- **C273** A row needs the extremes of two regions (mcsamples.py:2032-2033 always gives two). -/
theorem row_needs_two (w : Nat) (r : Row) (h : r.bot.length < 2 ∨ r.top.length < 2) : rowLine w r = .error .index := by
  unfold rowLine
  split
  · rename_i h1 h2 h3 h4
    rw [List.getElem?_eq_some_iff] at h3 h4
    obtain ⟨h3, _⟩ := h3
    obtain ⟨h4, _⟩ := h4
    omega
  · rfl

example : (rowLine 10 ⟨c!"a", c!"A", false, 1, [0], [2]⟩).toOption = none := by decide +kernel

end Verif.LikeTable
