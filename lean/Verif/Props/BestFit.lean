import Verif.Model.BestFit
import Verif.Lemmas.Split
import Verif.Props.MargeStats
import Verif.Props.JobStatus
import Verif.Props.DensityLevels

/-!
# Best fit files and likelihood statistics: properties
-/

set_option linter.unusedSectionVars false

namespace Verif.BestFit
open Verif.Py Verif.NumFmt
open Verif.MargeStats (splitWsN_blank splitWsN_tok Sep splitChar_not splitChar_app)
open Verif.Confidence (IsArgsort)
open Verif.Py.Np (cumsum searchsorted)
open Verif.Density (cumsum_get searchsorted_spec)

variable {K : Type} [Field K] [LinearOrder K] [IsStrictOrderedRing K] [FloorRing K]

/-! ## What a best fit file looks like -/

/-- white space, at least one character -/
def Gap (s : Str) : Prop := s ≠ [] ∧ Blank s

/-- the text `core` without white space around it -/
def Core (line core : Str) : Prop := Trim core ∧ ∃ a b, Blank a ∧ Blank b ∧ line = a ++ core ++ b

/-- a line `name = value` -/
def ShowsValue (line name : Str) (x : K) : Prop :=
  ∃ a b, '=' ∉ a ∧ '=' ∉ b ∧ Core a name ∧ floatStr b = some x ∧ line = a ++ '=' :: b

/-- a line with number, value, name and label of a parameter -/
def ShowsParam (line : Str) (p : Par K) : Prop :=
  ∃ a n b v c d e, Blank a ∧ Token n ∧ Gap b ∧ Token v ∧ Gap c ∧ Token p.name ∧ Gap d ∧ p.label ≠ [] ∧ Trim p.label ∧ Blank e ∧
    intStr n = some p.number ∧ floatStr v = some p.bestFit ∧
    line = a ++ (n ++ (b ++ (v ++ (c ++ (p.name ++ (d ++ (p.label ++ e)))))))

/-- `kind: tag = name` or `kind: name` -/
def ShowsNames (text kind : Str) (tag : Option Str) (name : Str) : Prop :=
  ∃ k r, text = k ++ ':' :: r ∧ ':' ∉ k ∧ Core k kind ∧
    (('=' ∉ r ∧ tag = none ∧ Core r name) ∨ ∃ s t n, '=' ∉ s ∧ '=' ∉ n ∧ r = s ++ '=' :: n ∧ tag = some t ∧ Core s t ∧ Core n name)

/-- a line with the log likelihood, chi-squared and names of a contribution -/
def ShowsChi2 (line kind : Str) (x : Chi2 K) : Prop :=
  ∃ a t b v c text e name, Blank a ∧ Token t ∧ Gap b ∧ Token v ∧ Gap c ∧ text ≠ [] ∧ Trim text ∧ Blank e ∧
    floatStr v = some x.chisq ∧ x.name = .str name ∧ ShowsNames text kind x.tag name ∧
    line = a ++ (t ++ (b ++ (v ++ (c ++ (text ++ e)))))

/-- contributions, with blank lines between -/
inductive ShowsAll : List Str → List (Str × Chi2 K) → Prop
  | nil : ShowsAll [] []
  | blank {l ls cs} : Blank l → ShowsAll ls cs → ShowsAll (l :: ls) cs
  | cons {l ls kind x cs} : ShowsChi2 l kind x → ShowsAll ls cs → ShowsAll (l :: ls) ((kind, x) :: cs)

/-- the blocks of parameters: varied, fixed, derived -/
structure Content (K : Type) where
  varied : List (Par K)
  fixed : List (Par K)
  derived : List (Par K)
  chi2 : List (Str × Chi2 K)

/-- the lines after the head -/
def Body (lines : List Str) (c : Content K) : Prop :=
  ∃ vs b1 fs b2 ds b3 head ls, List.Forall₂ ShowsParam vs c.varied ∧ List.Forall₂ ShowsParam fs c.fixed ∧
    List.Forall₂ ShowsParam ds c.derived ∧ Blank b1 ∧ Blank b2 ∧ Blank b3 ∧ ShowsAll ls c.chi2 ∧
    lines = vs ++ b1 :: (fs ++ b2 :: (ds ++ b3 :: head :: ls))

/-- the head: the likelihood, an optional line (chi-squared), a blank line -/
def Head (lines : List Str) (logLike : K) : Prop :=
  ∃ l b, ShowsValue l c!"-log(Like)" logLike ∧ Blank b ∧ (lines = [l, b] ∨ ∃ x, ¬ Blank x ∧ lines = [l, x, b])

/-- the flags set for each block -/
def Flags (c : Content K) : Prop :=
  (∀ p ∈ c.varied, p.isFixed = false ∧ p.isDerived = false) ∧ (∀ p ∈ c.fixed, p.isFixed = true ∧ p.isDerived = true) ∧
  (∀ p ∈ c.derived, p.isFixed = false ∧ p.isDerived = true)

/-! ## Lemmas on text -/

theorem sep_gap {b r : Str} (h : Gap b) : Sep (b ++ r) := by
  obtain ⟨h0, hb⟩ := h
  cases b with
  | nil => exact absurd rfl h0
  | cons c b => intro x hx; simp at hx; subst hx; exact hb _ (List.mem_cons_self ..)

theorem rstrip_blank {s b : Str} (h : Blank b) : rstrip (s ++ b) = rstrip s := by
  induction b using List.reverseRecOn with
  | nil => rw [List.append_nil]
  | append_singleton b x ih =>
    rw [← List.append_assoc, rstrip_append_ws _ _ (h x (by simp))]
    exact ih (fun c hc => h c (by simp [hc]))

theorem strip_blank_right {s b : Str} (h : Blank b) : strip (s ++ b) = strip s := by
  induction b using List.reverseRecOn with
  | nil => rw [List.append_nil]
  | append_singleton b x ih =>
    rw [← List.append_assoc, strip_append_ws _ _ (h x (by simp))]
    exact ih (fun c hc => h c (by simp [hc]))

theorem strip_blank_left {a s : Str} (h : Blank a) : strip (a ++ s) = strip s := by
  unfold strip; rw [lstrip_blank_append h]

theorem strip_blank {a : Str} (h : Blank a) : strip a = [] := by
  have := strip_blank_left (s := []) h
  rw [List.append_nil] at this
  rw [this]; rfl

theorem rstrip_split (s : Str) : ∃ b, Blank b ∧ s = rstrip s ++ b := by
  refine ⟨(s.reverse.takeWhile isWs).reverse, ?_, ?_⟩
  · intro c hc
    rw [List.mem_reverse] at hc
    exact List.mem_takeWhile_imp hc
  · unfold rstrip
    rw [← List.reverse_append, List.takeWhile_append_dropWhile, List.reverse_reverse]

theorem lstrip_split (s : Str) : ∃ a, Blank a ∧ s = a ++ lstrip s :=
  ⟨s.takeWhile isWs, fun _ hc => List.mem_takeWhile_imp hc, (List.takeWhile_append_dropWhile ..).symm⟩

theorem strip_rstrip (s : Str) : strip (rstrip s) = strip s := by
  obtain ⟨b, hb, e⟩ := rstrip_split s
  conv_rhs => rw [e, strip_blank_right hb]

theorem strip_lstrip (s : Str) : strip (lstrip s) = strip s := by
  obtain ⟨a, ha, e⟩ := lstrip_split s
  conv_rhs => rw [e, strip_blank_left ha]

theorem blank_of_strip {s : Str} (h : strip s = []) : Blank s := by
  obtain ⟨a, ha, e⟩ := lstrip_split s
  obtain ⟨b, hb, e2⟩ := rstrip_split (lstrip s)
  have h' : rstrip (lstrip s) = [] := h
  rw [h', List.nil_append] at e2
  rw [e, e2]
  intro c hc
  rcases List.mem_append.mp hc with hc | hc
  · exact ha c hc
  · exact hb c hc

theorem strip_mid {a b : Str} {ch : Char} (h : isWs ch = false) : strip (a ++ ch :: b) = lstrip a ++ ch :: rstrip b := by
  have h1 : lstrip (a ++ ch :: b) = lstrip a ++ ch :: b := by
    unfold lstrip
    induction a with
    | nil => simp [h]
    | cons c a ih =>
      simp only [List.cons_append, List.dropWhile_cons]
      split
      · exact ih
      · rfl
  have h2 : ∀ x : Str, rstrip (x ++ ch :: b) = x ++ ch :: rstrip b := by
    intro x
    unfold rstrip
    rw [List.reverse_append, List.reverse_cons, List.append_assoc]
    have : ∀ y z : Str, (y ++ ([ch] ++ z)).dropWhile isWs = y.dropWhile isWs ++ ([ch] ++ z) := by
      intro y z
      induction y with
      | nil => simp [h]
      | cons c y ih =>
        simp only [List.cons_append, List.dropWhile_cons]
        split
        · exact ih
        · rfl
    rw [this, List.reverse_append]
    simp
  unfold strip
  rw [h1, h2]

theorem strip_core {line core : Str} (h : Core line core) : strip line = core := by
  obtain ⟨ht, a, b, ha, hb, rfl⟩ := h
  rw [strip_blank_right hb, strip_blank_left ha, strip_eq_self ht]

theorem token_strip {t : Str} (h : Token t) : strip t = t := by
  apply strip_eq_self
  refine ⟨fun c hc => h.2 c (List.mem_of_mem_head? hc), fun c hc => h.2 c (List.mem_of_getLast? hc)⟩

theorem floatStr_strip (s : Str) : (floatStr (strip s) : Option K) = floatStr s := by
  unfold floatStr; rw [strip_strip]

theorem fl_ok {s : Str} {x : K} (h : floatStr s = some x) : fl s = .ok x := by unfold fl; rw [h]

theorem not_mem_of_suffix {ch : Char} {s t : Str} (h : ch ∉ s) (ht : t <:+: s) : ch ∉ t := fun hc => h (ht.subset hc)

theorem eqParts_eq {a b : Str} (ha : '=' ∉ a) (hb : '=' ∉ b) : eqParts (a ++ '=' :: b) = [lstrip a, rstrip b] := by
  unfold eqParts
  rw [strip_mid (by decide), splitChar_app, splitChar_not]
  · obtain ⟨x, _, e⟩ := rstrip_split b
    intro h; apply hb; rw [e]; simp [h]
  · obtain ⟨x, _, e⟩ := lstrip_split a
    intro h; apply ha; rw [e]; simp [h]

theorem eqName_of {line name : Str} {x : K} (h : ShowsValue line name x) : eqName line = name ∧ eqValue line = .ok x := by
  obtain ⟨a, b, ha, hb, hc, hf, rfl⟩ := h
  unfold eqName eqValue
  rw [eqParts_eq ha hb]
  constructor
  · show strip (lstrip a) = name
    rw [strip_lstrip, strip_core hc]
  · show fl (strip (rstrip b)) = _
    rw [strip_rstrip]
    exact fl_ok (by rw [floatStr_strip]; exact hf)

theorem paramLine_of {line : Str} {p : Par K} (h : ShowsParam line p) : paramLine p.isFixed p.isDerived line = .ok p := by
  obtain ⟨a, n, b, v, c, d, e, ha, hn, hb, hv, hc, hname, hd, hl0, hl, he, hi, hf, rfl⟩ := h
  have hs : splitWsN 3 (a ++ (n ++ (b ++ (v ++ (c ++ (p.name ++ (d ++ (p.label ++ e)))))))) = [n, v, p.name, p.label ++ e] := by
    rw [splitWsN_blank ha, splitWsN_tok hn (sep_gap hb), splitWsN_blank hb.2, splitWsN_tok hv (sep_gap hc), splitWsN_blank hc.2,
      splitWsN_tok hname (sep_gap hd), splitWsN_blank hd.2]
    have : lstrip (p.label ++ e) = p.label ++ e := by
      apply lstrip_eq_self
      intro x hx
      apply hl.1
      cases hlab : p.label with
      | nil => exact absurd hlab hl0
      | cons y l => rw [hlab] at hx; simpa using hx
    unfold splitWsN
    rw [this, if_neg (by simp [hl0])]
  unfold paramLine
  rw [hs]
  simp only [List.map_cons, List.map_nil, token_strip hn, token_strip hv, token_strip hname, strip_blank_right he, strip_eq_self hl, hi]
  rw [fl_ok hf]
  rfl

theorem paramLine_blank {line : Str} {p : Par K} (h : ShowsParam line p) : strip line ≠ [] := by
  obtain ⟨a, n, b, v, c, d, e, ha, hn, hb, hv, hc, hname, hd, hl0, hl, he, hi, hf, rfl⟩ := h
  intro h
  have := blank_of_strip h
  cases n with
  | nil => exact hn.1 rfl
  | cons x n =>
    have h1 := this x (by simp)
    have h2 := hn.2 x (by simp)
    rw [h1] at h2; cases h2

theorem splitChar1_app {ch : Char} : ∀ {a b : Str}, ch ∉ a → splitChar1 ch (a ++ ch :: b) = [a, b] := by
  intro a b h
  unfold splitChar1
  have : (a ++ ch :: b).span (· != ch) = (a, ch :: b) := by
    rw [List.span_eq_takeWhile_dropWhile]
    induction a with
    | nil => simp
    | cons c a ih =>
      rw [List.mem_cons, not_or] at h
      have hc : (c != ch) = true := by simpa using Ne.symm h.1
      have := ih h.2
      simp only [Prod.mk.injEq] at this
      simp only [List.cons_append, List.takeWhile_cons, List.dropWhile_cons, hc, if_true, this.1, this.2]
  rw [this]

theorem tagName_of {r : Str} {tag : Option Str} {name : Str}
    (h : ('=' ∉ r ∧ tag = none ∧ Core r name) ∨ ∃ s t n, '=' ∉ s ∧ '=' ∉ n ∧ r = s ++ '=' :: n ∧ tag = some t ∧ Core s t ∧ Core n name) :
    tagName (strip r) = .ok (tag, name) := by
  rcases h with ⟨h, rfl, hc⟩ | ⟨s, t, n, hs, hn, rfl, rfl, ht, hname⟩
  · unfold tagName
    rw [strip_core hc, if_neg]
    obtain ⟨_, a, b, _, _, rfl⟩ := hc
    intro hm; apply h; simp [hm]
  · unfold tagName
    rw [strip_mid (by decide), if_pos (by simp), splitChar_app, splitChar_not]
    · simp only [List.map_cons, List.map_nil, strip_lstrip, strip_rstrip, strip_core ht, strip_core hname]
    · obtain ⟨x, _, e⟩ := rstrip_split n
      intro h; apply hn; rw [e]; simp [h]
    · obtain ⟨x, _, e⟩ := lstrip_split s
      intro h; apply hs; rw [e]; simp [h]

theorem likePart_of {line kind : Str} {x : Chi2 K} (h : ShowsChi2 line kind x) : likePart line = .ok (kind, x) ∧ strip line ≠ [] := by
  obtain ⟨a, t, b, v, c, text, e, name, ha, ht, hb, hv, hc, h0, hx, he, hf, hname, ⟨k, r, rfl, hk, hkind, hr⟩, rfl⟩ := h
  constructor
  · generalize htx : k ++ ':' :: r = text at *
    have hs : splitWsN 2 (a ++ (t ++ (b ++ (v ++ (c ++ (text ++ e)))))) = [t, v, text ++ e] := by
      rw [splitWsN_blank ha, splitWsN_tok ht (sep_gap hb), splitWsN_blank hb.2, splitWsN_tok hv (sep_gap hc), splitWsN_blank hc.2]
      have : lstrip (text ++ e) = text ++ e := by
        apply lstrip_eq_self
        intro y hy
        apply hx.1
        cases text with
        | nil => exact absurd rfl h0
        | cons z l => simpa using hy
      unfold splitWsN
      rw [this, if_neg (by simp [h0])]
    unfold likePart
    rw [hs]
    simp only [List.map_cons, List.map_nil, List.drop_succ_cons, List.drop_zero, token_strip hv, strip_blank_right he, strip_eq_self hx]
    rw [← htx, splitChar1_app hk]
    simp only [List.map_cons, List.map_nil, strip_core hkind, tagName_of hr]
    show (fl v).bind _ = _
    rw [fl_ok hf]
    obtain ⟨n', t', q⟩ := x
    simp only at hname
    subst hname
    rfl
  · intro h
    have := blank_of_strip h
    cases t with
    | nil => exact ht.1 rfl
    | cons x t =>
      have h1 := this x (by simp)
      have h2 := ht.2 x (by simp)
      rw [h1] at h2; cases h2

theorem likeParts_of {lines : List Str} {cs : List (Str × Chi2 K)} (h : ShowsAll lines cs) : likeParts lines = .ok cs := by
  induction h with
  | nil => rfl
  | blank hb _ ih => rw [likeParts, if_pos (strip_blank hb), ih]
  | cons hx _ ih =>
    obtain ⟨h1, h2⟩ := likePart_of hx
    rw [likeParts, if_neg h2, h1, ih]
    rfl

theorem body_params (wf fx dv : Bool) (ch : Nat) {vs : List Str} {ps : List (Par K)} (h : List.Forall₂ ShowsParam vs ps)
    (hfl : ∀ p ∈ ps, p.isFixed = fx ∧ p.isDerived = dv) (rest : List Str) (r : List (Par K) × List (Str × Chi2 K))
    (hr : body wf ch fx dv rest = .ok r) :
    body wf ch fx dv (vs ++ rest) = .ok ((if !fx || wf then ps else []) ++ r.1, r.2) := by
  induction h with
  | nil => simp [hr]
  | @cons v p vs ps hv _ ih =>
    have ih := ih (fun q hq => hfl q (List.mem_cons_of_mem _ hq))
    obtain ⟨h1, h2⟩ := hfl p (List.mem_cons_self ..)
    have hp := paramLine_of hv
    rw [h1, h2] at hp
    rw [List.cons_append, body, if_neg (paramLine_blank hv)]
    by_cases hw : (!fx || wf) = true
    · rw [if_pos hw, hp, ih, if_pos hw, if_pos hw]
      rfl
    · rw [if_neg hw, ih, if_neg hw, if_neg hw]

theorem body_blank (wf fx dv : Bool) (ch : Nat) {b : Str} (hb : Blank b) (hch : ch ≠ 2) (rest : List Str) :
    (body wf ch fx dv (b :: rest) : Except BErr (List (Par K) × List (Str × Chi2 K))) = body wf (ch + 1) (!fx) true rest := by
  rw [body, if_pos (strip_blank hb), if_neg (by omega)]

theorem body_last (wf fx dv : Bool) {b head : Str} (hb : Blank b) {ls : List Str} {cs : List (Str × Chi2 K)} (h : ShowsAll ls cs) :
    body wf 2 fx dv (b :: head :: ls) = .ok (([] : List (Par K)), cs) := by
  rw [body, if_pos (strip_blank hb), if_pos rfl]
  cases ls with
  | nil => cases h; rfl
  | cons l ls =>
    rw [if_neg (by simp), List.drop_succ_cons, List.drop_zero, likeParts_of h]
    rfl

theorem body_spec (wf : Bool) {lines : List Str} {c : Content K} (h : Body lines c) (hfl : Flags c) :
    body wf 0 false false lines = .ok (c.varied ++ ((if wf then c.fixed else []) ++ c.derived), c.chi2) := by
  obtain ⟨vs, b1, fs, b2, ds, b3, head, ls, hv, hf, hd, h1, h2, h3, hls, rfl⟩ := h
  obtain ⟨f1, f2, f3⟩ := hfl
  have s3 := body_params wf false true 2 hd f3 _ _ (body_last wf false true h3 (head := head) hls)
  have s3' := (body_blank wf true true 1 h2 (by omega) (ds ++ b3 :: head :: ls)).trans s3
  have s2 := body_params wf true true 1 hf f2 _ _ s3'
  have s2' := (body_blank wf false false 0 h1 (by omega) (fs ++ b2 :: (ds ++ b3 :: head :: ls))).trans s2
  have s1 := body_params wf false false 0 hv f1 _ _ s2'
  rw [s1]
  cases wf <;> simp

theorem loadFrom_spec (wf : Bool) (w : Option K) {head lines : List Str} {x : K} {c : Content K} (hh : Head head x) (h : Body lines c)
    (hfl : Flags c) :
    loadFrom wf w (head ++ lines) = .ok ⟨w, x, c.chi2, c.varied ++ ((if wf then c.fixed else []) ++ c.derived)⟩ := by
  obtain ⟨l, b, hl, hb, hd⟩ := hh
  obtain ⟨n1, n2⟩ := eqName_of hl
  have hlike : likeLine l = .ok x := by unfold likeLine; rw [if_neg (by simp [n1]), n2]
  rcases hd with rfl | ⟨y, hy, rfl⟩
  · rw [show [l, b] ++ lines = l :: b :: lines from rfl, loadFrom, hlike]
    show (body wf 0 false false (if strip b = [] then lines else lines.drop 1)).bind _ = _
    rw [if_pos (strip_blank hb), body_spec wf h hfl]
    rfl
  · rw [show [l, y, b] ++ lines = l :: y :: b :: lines from rfl, loadFrom, hlike]
    show (body wf 0 false false (if strip y = [] then b :: lines else (b :: lines).drop 1)).bind _ = _
    rw [if_neg (fun e => hy (blank_of_strip e)), List.drop_succ_cons, List.drop_zero, body_spec wf h hfl]
    rfl

/-- **C122** A best fit file is read as it shows: likelihood, parameters in order with number, value, name and label, contributions to the
likelihood with kind, tag and name; the fixed parameters only if wanted. -/
theorem load_spec (wf : Bool) {head lines : List Str} {x : K} {c : Content K} (hh : Head head x) (h : Body lines c) (hfl : Flags c) :
    load wf (head ++ lines) = .ok ⟨none, x, c.chi2, c.varied ++ ((if wf then c.fixed else []) ++ c.derived)⟩ := by
  have := loadFrom_spec wf none hh h hfl
  obtain ⟨l, b, hl, hb, hd⟩ := hh
  have hn := (eqName_of hl).1
  have hne : ¬ eqName l = c!"weight" := by rw [hn]; decide
  rcases hd with rfl | ⟨y, hy, rfl⟩ <;>
  · rw [List.cons_append, load, if_neg hne, ← List.cons_append]
    exact this

/-- **C122** with a line of the weight before it -/
theorem load_weight (wf : Bool) {head lines : List Str} {wl : Str} {w x : K} {c : Content K} (hw : ShowsValue wl c!"weight" w)
    (hh : Head head x) (h : Body lines c) (hfl : Flags c) :
    load wf (wl :: (head ++ lines)) = .ok ⟨some w, x, c.chi2, c.varied ++ ((if wf then c.fixed else []) ++ c.derived)⟩ := by
  obtain ⟨n1, n2⟩ := eqName_of hw
  rw [load, if_pos n1, n2]
  exact loadFrom_spec wf (some w) hh h hfl

/-- **C122** a file that does not begin with the likelihood is refused -/
theorem load_refused (wf : Bool) (l : Str) (rest : List Str) (h1 : eqName l ≠ c!"weight") (h2 : eqName l ≠ c!"-log(Like)") :
    (load wf (l :: rest) : Except BErr (Best K)) = .error .format := by
  rw [load, if_neg h1, loadFrom]
  unfold likeLine
  rw [if_pos h2]
  rfl

def exFile : List Str := [c!" -log(Like) =    12.5\n", c!"  chi-sq    =    25\n", c!" \n",
  c!"    1  0.25E-01   omegabh2              \\Omega_b h^2\n", c!" \n", c!"    3  0.5   mnu                   m_\\nu\n", c!" \n",
  c!"   10  0.67E+02   H0                    H_0\n", c!" \n", c!" -log(Like)     chi-sq   data\n",
  c!"      1.500      3.000   CMB: lowl = commander v3\n", c!"      2.000      4.000   BAO: 6DF\n"]

example : (load true exFile).toOption = some (⟨none, 25 / 2,
    [(c!"CMB", ⟨.str (c!"commander v3"), some (c!"lowl"), 3⟩), (c!"BAO", ⟨.str (c!"6DF"), none, 4⟩)],
    [⟨1, 1 / 40, c!"omegabh2", c!"\\Omega_b h^2", false, false⟩, ⟨3, 1 / 2, c!"mnu", c!"m_\\nu", true, true⟩,
      ⟨10, 67, c!"H0", c!"H_0", false, true⟩]⟩ : Best ℚ) := by decide +kernel

/-- **C123** Fails without label: a parameter line of three words cannot be read, and with it the file. -/
theorem no_label_fails (fx dv : Bool) (a n b v c name e : Str) (ha : Blank a) (hn : Token n) (hb : Gap b) (hv : Token v) (hc : Gap c)
    (hname : Token name) (he : Gap e) :
    (paramLine fx dv (a ++ (n ++ (b ++ (v ++ (c ++ (name ++ e)))))) : Except BErr (Par K)) = .error .value := by
  have he' : e = e ++ [] := (List.append_nil e).symm
  unfold paramLine
  rw [splitWsN_blank ha, splitWsN_tok hn (sep_gap hb), splitWsN_blank hb.2, splitWsN_tok hv (sep_gap hc), splitWsN_blank hc.2,
    splitWsN_tok hname (by rw [he']; exact sep_gap he)]
  rw [he', splitWsN_blank he.2]
  rfl

/-- **C123** Fails for contributions without a kind: they are stored under a list instead of a name, and are never found by name. -/
theorem no_kind_fails (a t b v c text e : Str) (x : K) (ha : Blank a) (ht : Token t) (hb : Gap b) (hv : Token v) (hc : Gap c)
    (h0 : text ≠ []) (hx : Trim text) (he : Blank e) (hf : floatStr v = some x) (hk : ':' ∉ text) (hne : text ≠ ['=']) :
    likePart (a ++ (t ++ (b ++ (v ++ (c ++ (text ++ e)))))) = .ok ([], ⟨.list [text], none, x⟩) ∧
    ∀ (l : K) (name : Str), chiSquareForKindName ⟨none, l, [([], ⟨.list [text], none, x⟩)], []⟩ [] name = none := by
  constructor
  · have hs : splitWsN 2 (a ++ (t ++ (b ++ (v ++ (c ++ (text ++ e)))))) = [t, v, text ++ e] := by
      rw [splitWsN_blank ha, splitWsN_tok ht (sep_gap hb), splitWsN_blank hb.2, splitWsN_tok hv (sep_gap hc), splitWsN_blank hc.2]
      have : lstrip (text ++ e) = text ++ e := by
        apply lstrip_eq_self
        intro y hy
        apply hx.1
        cases text with
        | nil => exact absurd rfl h0
        | cons z l => simpa using hy
      unfold splitWsN
      rw [this, if_neg (by simp [h0])]
    have hsp : splitChar1 ':' text = [text] := by
      unfold splitChar1
      have : text.span (· != ':') = (text, []) := by
        rw [List.span_eq_takeWhile_dropWhile]
        have h1 : text.takeWhile (· != ':') = text := by
          rw [List.takeWhile_eq_self_iff]
          intro y hy
          simp only [bne_iff_ne, ne_eq]
          rintro rfl; exact hk hy
        have h2 := List.takeWhile_append_dropWhile (p := (· != ':')) (l := text)
        rw [h1] at h2
        rw [h1, List.append_right_eq_self.mp h2]
      rw [this]
    unfold likePart
    rw [hs]
    simp only [List.map_cons, List.map_nil, List.drop_succ_cons, List.drop_zero, token_strip hv, strip_blank_right he, strip_eq_self hx, hsp,
      if_neg hne]
    rw [fl_ok hf]
    rfl
  · intro l name
    simp [chiSquareForKindName]

/-! ## Using the values -/

theorem fold_dict (incl : Bool) (k : Str) : ∀ (ps : List (Par K)) (d : Dict Str K),
    Dict.get? (ps.foldl (fun d p => if incl || !p.isDerived then d.set p.name p.bestFit else d) d) k =
      ((ps.reverse.find? (fun p => (incl || !p.isDerived) && decide (p.name = k))).map Par.bestFit).or (Dict.get? d k)
  | [], d => by simp
  | p :: ps, d => by
    rw [List.foldl_cons, fold_dict incl k ps, List.reverse_cons, List.find?_append]
    cases ps.reverse.find? (fun p => (incl || !p.isDerived) && decide (p.name = k)) with
    | some q => simp
    | none =>
      simp only [Option.map_none, Option.none_or, List.find?_cons, List.find?_nil]
      by_cases hi : (incl || !p.isDerived) = true
      · rw [if_pos hi, hi, Dict.get?_set]
        by_cases hk : p.name = k
        · subst hk; simp
        · rw [if_neg (fun e => hk e.symm)]; simp [hk]
      · rw [if_neg hi]
        have : (incl || !p.isDerived) = false := by simpa using hi
        simp [this]

/-- **C122** The dictionary of the values: each parameter under its name (the last one if names repeat), the likelihood and a weight. -/
theorem getParamDict_spec (b : Best K) (incl : Bool) (k : Str) :
    Dict.get? (getParamDict b incl) k =
      if k = c!"loglike" then some b.logLike else if k = c!"weight" then some 1
      else (b.names.reverse.find? (fun p => (incl || !p.isDerived) && decide (p.name = k))).map Par.bestFit := by
  unfold getParamDict
  dsimp only
  rw [Dict.get?_set, Dict.get?_set, fold_dict]
  simp only [Dict.get?_nil, Option.or_none]

/-- **C122** so with different names every parameter is found -/
theorem getParamDict_get (b : Best K) (incl : Bool) (hnd : (b.names.map Par.name).Nodup) (p : Par K) (hp : p ∈ b.names)
    (hi : incl = true ∨ p.isDerived = false) (h1 : p.name ≠ c!"loglike") (h2 : p.name ≠ c!"weight") :
    Dict.get? (getParamDict b incl) p.name = some p.bestFit := by
  rw [getParamDict_spec, if_neg h1, if_neg h2]
  cases hf : b.names.reverse.find? (fun q => (incl || !q.isDerived) && decide (q.name = p.name)) with
  | none =>
    have := List.find?_eq_none.mp hf p (by simpa using hp)
    rcases hi with rfl | hi
    · simp at this
    · simp [hi] at this
  | some q =>
    have hq := List.mem_of_find?_eq_some hf
    have hpq := List.find?_some hf
    simp only [Bool.and_eq_true, decide_eq_true_eq] at hpq
    have : q = p := List.inj_on_of_nodup_map hnd (by simpa using hq) hp hpq.2
    rw [this]
    rfl

/-- **C123** Fails for fixed parameters: they are flagged as derived, so that the dictionary without derived parameters does not have them. -/
theorem fixed_derived_fails {head lines : List Str} {x : K} {c : Content K} (hh : Head head x) (h : Body lines c) (hfl : Flags c)
    (p : Par K) (hp : p ∈ c.fixed) (hnd : ((c.varied ++ (c.fixed ++ c.derived)).map Par.name).Nodup) (h1 : p.name ≠ c!"loglike")
    (h2 : p.name ≠ c!"weight") :
    ∃ b, load true (head ++ lines) = .ok b ∧ p ∈ b.names ∧ Dict.get? (getParamDict b false) p.name = none := by
  refine ⟨_, load_spec true hh h hfl, by simp [hp], ?_⟩
  rw [getParamDict_spec, if_neg h1, if_neg h2]
  rw [Option.map_eq_none_iff, List.find?_eq_none]
  intro q hq
  simp only [if_true, List.mem_reverse] at hq
  simp only [Bool.false_or, Bool.and_eq_true, Bool.not_eq_true', decide_eq_true_eq, not_and]
  intro hd he
  have hpm : p ∈ c.varied ++ (c.fixed ++ c.derived) := by simp [hp]
  have : q = p := List.inj_on_of_nodup_map hnd hq hpm he
  rw [this, (hfl.2.1 p hp).2] at hd
  cases hd

/-- **C122** a contribution is looked up by kind and name: the first one counts -/
theorem chiSquare_spec (b : Best K) (kind name : Str) (v : K) :
    chiSquareForKindName b kind name = some v ↔
      ∃ as x bs, b.chiSquareds = as ++ (kind, x) :: bs ∧ x.name = .str name ∧ x.chisq = v ∧ ∀ y ∈ as, ¬ (y.1 = kind ∧ y.2.name = .str name) := by
  unfold chiSquareForKindName
  rw [Option.map_eq_some_iff]
  constructor
  · rintro ⟨⟨k, x⟩, hf, rfl⟩
    obtain ⟨hp, as, bs, e, hno⟩ := List.find?_eq_some_iff_append.mp hf
    simp only [decide_eq_true_eq] at hp
    obtain ⟨rfl, hn⟩ := hp
    refine ⟨as, x, bs, e, hn, rfl, fun y hy => ?_⟩
    have := hno y hy
    simpa only [Bool.not_eq_true', decide_eq_false_iff_not] using this
  · rintro ⟨as, x, bs, e, hn, rfl, hno⟩
    refine ⟨(kind, x), ?_, rfl⟩
    rw [List.find?_eq_some_iff_append]
    refine ⟨by simp [hn], as, bs, e, fun y hy => ?_⟩
    simpa only [Bool.not_eq_true', decide_eq_false_iff_not] using hno y hy

/-! ### contributions by kind -/

theorem byKind_get (k : Str) : ∀ (l : List (Str × Chi2 K)) (d : Dict Str (List (Chi2 K))),
    (Dict.get? (l.foldl (fun d p => d.set p.1 ((Dict.get? d p.1).getD [] ++ [p.2])) d) k).getD [] =
      (Dict.get? d k).getD [] ++ (l.filter (fun p => decide (p.1 = k))).map Prod.snd
  | [], d => by simp
  | p :: l, d => by
    rw [List.foldl_cons, byKind_get k l, Dict.get?_set]
    by_cases h : k = p.1
    · subst h; simp
    · rw [if_neg h, List.filter_cons, if_neg (by simpa using fun e : p.1 = k => h e.symm)]

theorem byKind_keys (k : Str) : ∀ (l : List (Str × Chi2 K)) (d : Dict Str (List (Chi2 K))), Dict.WF d →
    Dict.WF (l.foldl (fun d p => d.set p.1 ((Dict.get? d p.1).getD [] ++ [p.2])) d) ∧
    (k ∈ Dict.keys (l.foldl (fun d p => d.set p.1 ((Dict.get? d p.1).getD [] ++ [p.2])) d) ↔ k ∈ Dict.keys d ∨ ∃ x, (k, x) ∈ l)
  | [], d, h => by simp [h]
  | p :: l, d, h => by
    obtain ⟨h1, h2⟩ := byKind_keys k l _ (Dict.WF_set p.1 ((Dict.get? d p.1).getD [] ++ [p.2]) h)
    refine ⟨h1, ?_⟩
    rw [List.foldl_cons, h2, Dict.mem_keys_set]
    constructor
    · rintro ((rfl | h) | ⟨x, h⟩)
      · exact .inr ⟨p.2, by simp⟩
      · exact .inl h
      · exact .inr ⟨x, by simp [h]⟩
    · rintro (h | ⟨x, h⟩)
      · exact .inl (.inr h)
      · rcases List.mem_cons.mp h with e | h
        · exact .inl (.inl (by rw [← e]))
        · exact .inr ⟨x, h⟩

theorem insertKind_perm (x : Str × List (Chi2 K)) : ∀ l, (insertKind x l).Perm (x :: l)
  | [] => .refl _
  | y :: l => by
    unfold insertKind
    split
    · exact .refl _
    · exact ((insertKind_perm x l).cons y).trans (.swap ..)

theorem insertAll_perm : ∀ l : List (Str × List (Chi2 K)), (l.foldr insertKind []).Perm l
  | [] => .refl _
  | x :: l => (insertKind_perm x _).trans ((insertAll_perm l).cons x)

theorem insertKind_sorted (x : Str × List (Chi2 K)) : ∀ l : List (Str × List (Chi2 K)),
    l.Pairwise (fun a b => IniFile.strLe a.1 b.1 = true) → (insertKind x l).Pairwise (fun a b => IniFile.strLe a.1 b.1 = true)
  | [], _ => by simp [insertKind]
  | y :: l, h => by
    unfold insertKind
    obtain ⟨h1, h2⟩ := List.pairwise_cons.mp h
    split
    · rename_i hxy
      refine List.pairwise_cons.mpr ⟨fun z hz => ?_, h⟩
      rcases List.mem_cons.mp hz with rfl | hz
      · exact hxy
      · exact IniFile.strLe_trans hxy (h1 z hz)
    · rename_i hxy
      refine List.pairwise_cons.mpr ⟨fun z hz => ?_, insertKind_sorted x l h2⟩
      rcases List.mem_cons.mp ((insertKind_perm x l).mem_iff.mp hz) with rfl | hz
      · exact (IniFile.strLe_total _ _).resolve_left hxy
      · exact h1 z hz

/-- **C122** The contributions by kind: the kinds that occur, each once and in order, with their contributions in the order of the file. -/
theorem sorted_spec (b : Best K) :
    (∀ k l, (k, l) ∈ sortedChiSquareds b ↔ l ≠ [] ∧ l = (b.chiSquareds.filter (fun p => decide (p.1 = k))).map Prod.snd) ∧
    (sortedChiSquareds b).Pairwise (fun x y => IniFile.strLe x.1 y.1 = true) ∧ ((sortedChiSquareds b).map Prod.fst).Nodup := by
  have hperm : (sortedChiSquareds b).Perm (byKind b.chiSquareds) := insertAll_perm _
  have hwf : Dict.WF (byKind b.chiSquareds) := (byKind_keys [] b.chiSquareds [] Dict.WF_nil).1
  refine ⟨?_, ?_, ?_⟩
  · intro k l
    rw [hperm.mem_iff]
    have hget := byKind_get k b.chiSquareds []
    have hkeys := (byKind_keys k b.chiSquareds [] Dict.WF_nil).2
    rw [Dict.get?_nil, Option.getD_none, List.nil_append] at hget
    change (Dict.get? (byKind b.chiSquareds) k).getD [] = _ at hget
    change k ∈ Dict.keys (byKind b.chiSquareds) ↔ _ at hkeys
    constructor
    · intro h
      have hg := Dict.get?_of_mem hwf h
      rw [hg, Option.getD_some] at hget
      refine ⟨?_, hget⟩
      have hk : k ∈ Dict.keys (byKind b.chiSquareds) := List.mem_map_of_mem (f := Prod.fst) h
      obtain ⟨x, hx⟩ := (hkeys.mp hk).resolve_left (by simp)
      rw [hget]
      intro e
      have : x ∈ (b.chiSquareds.filter (fun p => decide (p.1 = k))).map Prod.snd :=
        List.mem_map.mpr ⟨(k, x), List.mem_filter.mpr ⟨hx, by simp⟩, rfl⟩
      rw [e] at this
      cases this
    · rintro ⟨hne, rfl⟩
      obtain ⟨x, hx⟩ := List.exists_mem_of_ne_nil _ hne
      obtain ⟨⟨k', x'⟩, hm, rfl⟩ := List.mem_map.mp hx
      obtain ⟨hm, hk⟩ := List.mem_filter.mp hm
      have hk : k' = k := of_decide_eq_true hk
      rw [hk] at hm
      have hk := hkeys.mpr (.inr ⟨x', hm⟩)
      cases hg : Dict.get? (byKind b.chiSquareds) k with
      | none => exact absurd hk (Dict.get?_eq_none.mp hg)
      | some l =>
        rw [hg, Option.getD_some] at hget
        rw [← hget]
        exact Dict.mem_of_get? hg
  · unfold sortedChiSquareds
    generalize byKind b.chiSquareds = d
    induction d with
    | nil => simp
    | cons x d ih => exact insertKind_sorted x _ ih
  · exact (hperm.map Prod.fst).nodup_iff.mpr hwf

example : (sortedChiSquareds { logLike := (0 : ℚ), chiSquareds := [(c!"CMB", ⟨.str (c!"a"), none, 1⟩), (c!"BAO", ⟨.str (c!"b"), none, 2⟩),
    (c!"CMB", ⟨.str (c!"c"), none, 3⟩)] }).map (fun p => (p.1, p.2.map Chi2.chisq)) = [(c!"BAO", [2]), (c!"CMB", [1, 3])] := by decide +kernel

/-- **C122** Adding best fit values to marginalised statistics keeps exactly the parameters that the best fit has, in order, each with the value
of its name. -/
theorem addBestFit_spec (m : MargeStats.Marge K) (b : Best K) :
    (addBestFit m b).map (fun x => x.par.name) = (m.names.map MargeStats.Par.name).filter (fun n => (b.par n).isSome) ∧
    ∀ x ∈ addBestFit m b, ∃ p, b.par x.par.name = some p ∧ x.bestFit = p.bestFit ∧ ∃ y ∈ m.names, y.name = x.par.name ∧
      x.par = { y with isDerived := p.isDerived } := by
  constructor
  · unfold addBestFit
    induction m.names with
    | nil => rfl
    | cons y l ih =>
      rw [List.filterMap_cons, List.map_cons, List.filter_cons]
      cases h : b.par y.name with
      | none => simp [ih]
      | some p => simp [ih]
  · intro x hx
    obtain ⟨y, hy, h⟩ := List.mem_filterMap.mp hx
    rw [Option.map_eq_some_iff] at h
    obtain ⟨p, hp, rfl⟩ := h
    exact ⟨p, hp, rfl, y, hy, rfl, rfl⟩

/-! ## Likelihood statistics -/

/-- the value read is the value written up to the printed digits -/
def Near (v : Option ℚ) (x : ℚ) : Prop := ∃ y, v = some y ∧ |y - x| ≤ 1 / 10 ^ 6 / 2

theorem statLine (x : ℚ) : ∃ y, |y - x| ≤ 1 / 10 ^ 6 / 2 ∧ ∀ (d : Dict Str ℚ) (pre name : Str) (ls : List Str), '=' ∉ pre →
    (∃ c ∈ pre, isWs c = false) → strip pre = name →
      statLines d ((pre ++ c!"= " ++ fmtF 6 x ++ c!"\n") :: ls) = statLines (Dict.set d name y) ls := by
  obtain ⟨_, y, hy, hb⟩ := fmtF_spec 6 x
  refine ⟨y, hb, fun d pre name ls hpre hne hname => ?_⟩
  have hchars := Verif.JobStatus.fmtF_chars 6 x (by omega)
  have e : pre ++ c!"= " ++ fmtF 6 x ++ c!"\n" = pre ++ '=' :: (' ' :: (fmtF 6 x ++ ['\n'])) := by simp
  rw [e, statLines]
  have hnb : ¬ strip (pre ++ '=' :: (' ' :: (fmtF 6 x ++ ['\n']))) = [] := by
    intro h
    obtain ⟨c, hc, hw⟩ := hne
    have := blank_of_strip h c (by simp [hc])
    rw [this] at hw; cases hw
  have hval : '=' ∉ ' ' :: (fmtF 6 x ++ ['\n']) := by
    simp only [List.mem_cons, List.mem_append, List.not_mem_nil, or_false, not_or]
    refine ⟨by decide, fun h => ?_, by decide⟩
    rcases hchars _ h with h | h | h <;> revert h <;> decide
  rw [if_neg hnb, splitChar_app hpre, splitChar_not hval]
  simp only [List.map_cons, List.map_nil, hname]
  have hst : strip (' ' :: (fmtF 6 x ++ ['\n'])) = fmtF 6 x := by
    have := strip_blank_left (a := [' ']) (s := fmtF 6 x ++ ['\n']) blank_space
    rw [List.singleton_append] at this
    rw [this, strip_blank_right blank_nl, token_strip (Verif.JobStatus.fmtF_token 6 x (by omega))]
  rw [hst, fl_ok hy]
  rfl

def putInv (y4 : Option ℚ) (d : Dict Str ℚ) : Dict Str ℚ :=
  match y4 with
  | some y => Dict.set d c!"Ln(mean 1/like)" y
  | none => d

/-- **C124** The summary written by LikeStats is read back to the printed digits, whatever follows it after a blank line; the mean of 1/like is
present exactly if it was written. -/
theorem summary_read (best mean meanLike : ℚ) (inv : Option ℚ) (rest : List Str) (hrest : rest = [] ∨ ∃ b r, Blank b ∧ rest = b :: r) :
    ∃ s, loadStats (likeSummary best inv mean meanLike ++ rest) = .ok s ∧ Near s.best best ∧ Near s.mean mean ∧ Near s.meanLike meanLike ∧
      (∀ x, inv = some x → x ≠ 0 → Near s.meanInv x) ∧ (inv = none → s.meanInv = none) := by
  have hend : ∀ d, statLines d rest = .ok d := by
    intro d
    rcases hrest with rfl | ⟨b, r, hb, rfl⟩
    · rfl
    · rw [statLines, if_pos (strip_blank hb)]
  obtain ⟨y1, b1, e1⟩ := statLine best
  obtain ⟨y2, b2, e2⟩ := statLine mean
  obtain ⟨y3, b3, e3⟩ := statLine meanLike
  have k1 := fun d ls => e1 d c!"Best fit sample -log(Like) " c!"Best fit sample -log(Like)" ls (by decide) ⟨'B', by decide, by decide⟩ (by decide)
  have k2 := fun d ls => e2 d c!"mean(-Ln(like)) " c!"mean(-Ln(like))" ls (by decide) ⟨'m', by decide, by decide⟩ (by decide)
  have k3 := fun d ls => e3 d c!"-Ln(mean like)  " c!"-Ln(mean like)" ls (by decide) ⟨'L', by decide, by decide⟩ (by decide)
  have plain : ∀ l4 : List Str, (∃ y4 : Option ℚ, (∀ d ls, statLines d (l4 ++ ls) =
      statLines (putInv y4 d) ls) ∧
      (∀ x, inv = some x → x ≠ 0 → Near y4 x) ∧ (inv = none → y4 = none)) →
      ∃ s, loadStats ([c!"Best fit sample -log(Like) = " ++ fmtF 6 best ++ c!"\n"] ++ l4 ++
        [c!"mean(-Ln(like)) = " ++ fmtF 6 mean ++ c!"\n", c!"-Ln(mean like)  = " ++ fmtF 6 meanLike ++ c!"\n"] ++ rest) = .ok s ∧
        Near s.best best ∧ Near s.mean mean ∧ Near s.meanLike meanLike ∧
        (∀ x, inv = some x → x ≠ 0 → Near s.meanInv x) ∧ (inv = none → s.meanInv = none) := by
    rintro l4 ⟨y4, h4, h5, h6⟩
    have hall : statLines [] ([c!"Best fit sample -log(Like) = " ++ fmtF 6 best ++ c!"\n"] ++ l4 ++
        [c!"mean(-Ln(like)) = " ++ fmtF 6 mean ++ c!"\n", c!"-Ln(mean like)  = " ++ fmtF 6 meanLike ++ c!"\n"] ++ rest) =
        .ok (Dict.set (Dict.set (putInv y4 (Dict.set [] c!"Best fit sample -log(Like)" y1)) c!"mean(-Ln(like))" y2) c!"-Ln(mean like)" y3) := by
      rw [List.append_assoc, List.append_assoc, List.singleton_append]
      refine (k1 _ _).trans ((h4 _ _).trans ((k2 _ _).trans ((k3 _ _).trans (hend _))))
    unfold loadStats
    rw [hall]
    refine ⟨_, rfl, ⟨y1, ?_, b1⟩, ⟨y2, ?_, b2⟩, ⟨y3, ?_, b3⟩, ?_, ?_⟩
    · cases y4 <;> rfl
    · cases y4 <;> rfl
    · cases y4 <;> rfl
    · intro x h0 h1
      have := h5 x h0 h1
      revert this
      cases y4 <;> exact id
    · intro h0
      rw [h6 h0]
      rfl
  unfold likeSummary
  apply plain
  cases inv with
  | none => exact ⟨none, fun _ _ => rfl, by simp, fun _ => rfl⟩
  | some x =>
    by_cases hx : x = 0
    · subst hx
      exact ⟨none, fun _ _ => rfl, by rintro y ⟨⟩ h; exact absurd rfl h, by simp⟩
    · obtain ⟨y4, b4, e4⟩ := statLine x
      refine ⟨some y4, fun d ls => ?_, ?_, by simp⟩
      · simp only [if_neg hx]
        exact e4 d c!"Ln(mean 1/like) " c!"Ln(mean 1/like)" ls (by decide) ⟨'L', by decide, by decide⟩ (by decide)
      · rintro y ⟨⟩ _
        exact ⟨y4, rfl, b4⟩

example : (loadStats (likeSummary (25 / 2) (some 13) (27 / 2) (51 / 4) ++ [c!"\n", c!"parameter   bestfit\n"])).toOption =
    some ⟨some (25 / 2), some 13, some (27 / 2), some (51 / 4), none⟩ := by decide +kernel

/-- **C125** Fails for two values: a mean of 1/like that is zero is not written, and the complexity is never written. -/
theorem summary_loses_fails (best mean meanLike : ℚ) :
    likeSummary best (some 0) mean meanLike = likeSummary best none mean meanLike ∧
    ∀ s, loadStats (likeSummary best (some 0) mean meanLike) = .ok s → s.meanInv = none := by
  have e : likeSummary best (some 0) mean meanLike = likeSummary best none mean meanLike := by simp [likeSummary]
  refine ⟨e, fun s hs => ?_⟩
  obtain ⟨s', h1, _, _, _, _, h2⟩ := summary_read best mean meanLike none [] (.inl rfl)
  rw [List.append_nil, ← e, hs] at h1
  injection h1 with h1
  rw [h1]
  exact h2 rfl

/-! ### The N-dimensional region -/

/-- weight of some rows -/
def massOf (weights : List K) (rows : List Nat) : K := (rows.map (fun i => weights.getD i 0)).sum

theorem range_map_getD (weights : List K) : (List.range weights.length).map (fun i => weights.getD i 0) = weights := by
  apply List.ext_getElem
  · simp
  · intro i h1 h2
    simp [List.getElem?_eq_getElem h2]

theorem massOf_all {argsort : List K → List Nat} (hA : IsArgsort argsort) (ll weights : List K) (hlen : weights.length = ll.length) :
    massOf weights (argsort ll) = weights.sum := by
  unfold massOf
  rw [((hA ll).1.map (fun i => weights.getD i 0)).sum_eq, ← hlen, range_map_getD]

/-- **C124** The rows of the region for a fraction `c`: different rows, the most likely ones; they hold less than the fraction, and with the
next likely row at least the fraction. -/
theorem region_spec {argsort : List K → List Nat} (hA : IsArgsort argsort) (ll weights : List K) (c : K) :
    (region argsort ll weights c).Nodup ∧ (∀ i ∈ region argsort ll weights c, i < ll.length) ∧
    (∀ i ∈ region argsort ll weights c, ∀ j < ll.length, j ∉ region argsort ll weights c → ll.getD i 0 ≤ ll.getD j 0) ∧
    (region argsort ll weights c ≠ [] → massOf weights (region argsort ll weights c) < weights.sum * c) ∧
    ((region argsort ll weights c).length < ll.length → ∃ j < ll.length, j ∉ region argsort ll weights c ∧
      (∀ k < ll.length, k ∉ region argsort ll weights c → ll.getD j 0 ≤ ll.getD k 0) ∧
      weights.sum * c ≤ massOf weights (region argsort ll weights c) + weights.getD j 0) := by
  obtain ⟨hperm, hsort⟩ := hA ll
  have hnd : (argsort ll).Nodup := hperm.nodup_iff.mpr List.nodup_range
  have hl : (argsort ll).length = ll.length := by rw [hperm.length_eq, List.length_range]
  obtain ⟨s1, s2⟩ := searchsorted_spec (weights.sum * c) (cumsum ((argsort ll).map (fun i => weights.getD i 0)))
  unfold region
  dsimp only
  generalize searchsorted (cumsum ((argsort ll).map (fun i => weights.getD i 0))) (weights.sum * c) = k at s1 s2
  have hmem : ∀ i, i ∈ argsort ll ↔ i < ll.length := fun i => by rw [hperm.mem_iff, List.mem_range]
  have hsplit : argsort ll = (argsort ll).take k ++ (argsort ll).drop k := (List.take_append_drop k _).symm
  have hkeep : ∀ i ∈ (argsort ll).take k, ∀ j < ll.length, j ∉ (argsort ll).take k → ll.getD i 0 ≤ ll.getD j 0 := by
    intro i hi j hj hjn
    have hjd : j ∈ (argsort ll).drop k := by
      have := (hmem j).mpr hj
      rw [hsplit] at this
      exact (List.mem_append.mp this).resolve_left hjn
    rw [hsplit, List.map_append] at hsort
    exact (List.pairwise_append.mp hsort).2.2 _ (List.mem_map_of_mem hi) _ (List.mem_map_of_mem hjd)
  refine ⟨hnd.sublist (List.take_sublist ..), fun i hi => (hmem i).mp (List.mem_of_mem_take hi), hkeep, ?_, ?_⟩
  · intro hne
    have hk : 0 < k := by
      rcases Nat.eq_zero_or_pos k with h | h
      · subst h; simp at hne
      · exact h
    obtain ⟨v, hv, hlt⟩ := s1 (k - 1) (by omega)
    rw [cumsum_get] at hv
    split at hv
    · injection hv with hv
      rw [Nat.sub_add_cancel hk, ← List.map_take] at hv
      unfold massOf
      rw [hv]; exact hlt
    · cases hv
  · intro hlt
    have hkl : k < (argsort ll).length := by
      rw [List.length_take, ← hl] at hlt
      omega
    have hdrop : (argsort ll).drop k = (argsort ll)[k] :: (argsort ll).drop (k + 1) := List.drop_eq_getElem_cons hkl
    have hjn : (argsort ll)[k] ∉ (argsort ll).take k := by
      intro h
      rw [hsplit, hdrop] at hnd
      exact (List.nodup_append.mp hnd).2.2 _ h _ (List.mem_cons_self ..) rfl
    refine ⟨(argsort ll)[k], (hmem _).mp (List.getElem_mem hkl), hjn, ?_, ?_⟩
    · intro m hm hmn
      have hmd : m ∈ (argsort ll).drop k := by
        have := (hmem m).mpr hm
        rw [hsplit] at this
        exact (List.mem_append.mp this).resolve_left hmn
      rw [hdrop] at hmd
      rcases List.mem_cons.mp hmd with rfl | hmd
      · exact le_refl _
      · rw [hsplit, hdrop, List.map_append, List.map_cons] at hsort
        exact (List.pairwise_cons.mp (List.pairwise_append.mp hsort).2.1).1 _ (List.mem_map_of_mem hmd)
    · have hget := cumsum_get ((argsort ll).map (fun i => weights.getD i 0)) k
      rw [List.length_map, if_pos hkl] at hget
      have := s2 _ hget
      rw [← List.map_take, List.take_succ_eq_append_getElem hkl, List.map_append, List.sum_append] at this
      simpa [massOf] using this

theorem foldl_min_le : ∀ (l : List K) (a : K), l.foldl min a ≤ a ∧ (∀ x ∈ l, l.foldl min a ≤ x) ∧ (l.foldl min a = a ∨ l.foldl min a ∈ l)
  | [], a => by simp
  | x :: l, a => by
    obtain ⟨h1, h2, h3⟩ := foldl_min_le l (min a x)
    rw [List.foldl_cons]
    refine ⟨h1.trans (min_le_left _ _), ?_, ?_⟩
    · intro y hy
      rcases List.mem_cons.mp hy with rfl | hy
      · exact h1.trans (min_le_right _ _)
      · exact h2 y hy
    · rcases h3 with h | h
      · rcases min_choice a x with e | e
        · left; rw [h, e]
        · right; rw [h, e]; exact List.mem_cons_self ..
      · right; exact List.mem_cons_of_mem _ h

theorem le_foldl_max : ∀ (l : List K) (a : K), a ≤ l.foldl max a ∧ (∀ x ∈ l, x ≤ l.foldl max a) ∧ (l.foldl max a = a ∨ l.foldl max a ∈ l)
  | [], a => by simp
  | x :: l, a => by
    obtain ⟨h1, h2, h3⟩ := le_foldl_max l (max a x)
    rw [List.foldl_cons]
    refine ⟨(le_max_left _ _).trans h1, ?_, ?_⟩
    · intro y hy
      rcases List.mem_cons.mp hy with rfl | hy
      · exact (le_max_right _ _).trans h1
      · exact h2 y hy
    · rcases h3 with h | h
      · rcases max_choice a x with e | e
        · left; rw [h, e]
        · right; rw [h, e]; exact List.mem_cons_self ..
      · right; exact List.mem_cons_of_mem _ h

/-- the smallest and largest of some values -/
def Extremes (l : List K) (p : K × K) : Prop := p.1 ∈ l ∧ p.2 ∈ l ∧ ∀ x ∈ l, p.1 ≤ x ∧ x ≤ p.2

theorem minMax_spec {l : List K} {p : K × K} : minMax? l = some p ↔ Extremes l p := by
  cases l with
  | nil => simp [minMax?, Extremes]
  | cons a l =>
    obtain ⟨m1, m2, m3⟩ := foldl_min_le l a
    obtain ⟨n1, n2, n3⟩ := le_foldl_max l a
    have hex : Extremes (a :: l) (l.foldl min a, l.foldl max a) := by
      refine ⟨?_, ?_, ?_⟩
      · rcases m3 with h | h
        · simp [h]
        · exact List.mem_cons_of_mem _ h
      · rcases n3 with h | h
        · simp [h]
        · exact List.mem_cons_of_mem _ h
      · intro x hx
        rcases List.mem_cons.mp hx with rfl | hx
        · exact ⟨m1, n1⟩
        · exact ⟨m2 x hx, n2 x hx⟩
    unfold minMax?
    constructor
    · intro h; injection h with h; subst h; exact hex
    · rintro ⟨h1, h2, h3⟩
      refine congrArg some (Prod.ext ?_ ?_)
      · exact le_antisymm (hex.2.2 _ h1).1 (h3 _ hex.1).1
      · exact le_antisymm (h3 _ hex.2.1).2 (hex.2.2 _ h2).2

/-- **C124** The N-dimensional limits of a parameter are its smallest and largest value in the two regions; there are limits exactly if both
regions have a row. -/
theorem ndLimits_spec (argsort : List K → List Nat) (ll weights col : List K) (c1 c2 : K) (cs : List K) :
    (∀ a b, ndLimits argsort ll weights (c1 :: c2 :: cs) col = .ok (a, b) ↔
      Extremes ((region argsort ll weights c1).map (fun i => col.getD i 0)) a ∧
      Extremes ((region argsort ll weights c2).map (fun i => col.getD i 0)) b) ∧
    ((region argsort ll weights c1 = [] ∨ region argsort ll weights c2 = []) ↔
      ndLimits argsort ll weights (c1 :: c2 :: cs) col = .error .value) := by
  unfold ndLimits
  dsimp only
  have hnone : ∀ l : List K, minMax? l = none ↔ l = [] := by intro l; cases l <;> simp [minMax?]
  constructor
  · intro a b
    rw [← minMax_spec, ← minMax_spec]
    cases minMax? ((region argsort ll weights c1).map (fun i => col.getD i 0)) <;>
    cases minMax? ((region argsort ll weights c2).map (fun i => col.getD i 0)) <;> simp
  · have h1 := hnone ((region argsort ll weights c1).map (fun i => col.getD i 0))
    have h2 := hnone ((region argsort ll weights c2).map (fun i => col.getD i 0))
    rw [List.map_eq_nil_iff] at h1 h2
    rw [← h1, ← h2]
    cases minMax? ((region argsort ll weights c1).map (fun i => col.getD i 0)) <;>
    cases minMax? ((region argsort ll weights c2).map (fun i => col.getD i 0)) <;> simp

theorem searchsorted_mono (l : List K) {s t : K} (h : s ≤ t) : searchsorted l s ≤ searchsorted l t := by
  unfold searchsorted
  induction l with
  | nil => simp
  | cons a l ih =>
    simp only [List.takeWhile_cons, decide_eq_true_eq]
    by_cases ha : a < s
    · rw [if_pos ha, if_pos (lt_of_lt_of_le ha h)]
      simpa using ih
    · rw [if_neg ha]; simp

/-- **C124** A larger fraction has wider limits. -/
theorem ndLimits_nested (argsort : List K → List Nat) (ll weights col : List K) (c1 c2 : K) (cs : List K) (hs : 0 ≤ weights.sum) (hc : c1 ≤ c2)
    (a b : K × K) (h : ndLimits argsort ll weights (c1 :: c2 :: cs) col = .ok (a, b)) : b.1 ≤ a.1 ∧ a.2 ≤ b.2 := by
  obtain ⟨h1, h2⟩ := ((ndLimits_spec argsort ll weights col c1 c2 cs).1 a b).mp h
  have hpre : ∀ i ∈ region argsort ll weights c1, i ∈ region argsort ll weights c2 := by
    intro i hi
    unfold region at hi ⊢
    exact (List.take_subset_take_left _ (searchsorted_mono _ (mul_le_mul_of_nonneg_left hc hs))) hi
  have hsub : ∀ x ∈ (region argsort ll weights c1).map (fun i => col.getD i 0), x ∈ (region argsort ll weights c2).map (fun i => col.getD i 0) := by
    intro x hx
    obtain ⟨i, hi, rfl⟩ := List.mem_map.mp hx
    exact List.mem_map_of_mem (hpre i hi)
  exact ⟨(h2.2.2 _ (hsub _ h1.1)).1, (h2.2.2 _ (hsub _ h1.2.1)).2⟩

def exSort (_ : List ℚ) : List Nat := [2, 0, 1, 3]

example : region exSort [5, 7, 4, 9] [2, 3, 1, 4] (19 / 20) = [2, 0, 1] ∧ region exSort [5, 7, 4, 9] [2, 3, 1, 4] (1 / 2) = [2, 0] ∧
    (ndLimits exSort [5, 7, 4, 9] [2, 3, 1, 4] [1 / 2, 19 / 20] [30, 10, 40, 20]).toOption = some ((30, 40), (10, 40)) := by decide +kernel

/-- **C125** Fails for a dominant row: if the most likely row holds the fraction of the first contour there are no limits (ValueError). -/
theorem nd_empty_fails {argsort : List K → List Nat} (hA : IsArgsort argsort) (ll weights col : List K) (hw0 : ∀ w ∈ weights, 0 ≤ w)
    (b : Nat) (hb : b < ll.length) (hbest : ∀ j < ll.length, j ≠ b → ll.getD b 0 < ll.getD j 0) (c1 c2 : K) (cs : List K)
    (hw : weights.sum * c1 ≤ weights.getD b 0) : ndLimits argsort ll weights (c1 :: c2 :: cs) col = .error .value := by
  apply (ndLimits_spec argsort ll weights col c1 c2 cs).2.mp
  left
  by_contra hne
  obtain ⟨h1, h2, h3, h4, _⟩ := region_spec hA ll weights c1
  have hmem : b ∈ region argsort ll weights c1 := by
    by_contra hbn
    obtain ⟨i, hi⟩ := List.exists_mem_of_ne_nil _ hne
    have := h3 i hi b hb hbn
    have := hbest i (h2 i hi) (fun e => hbn (e ▸ hi))
    linarith
  have hle : weights.getD b 0 ≤ massOf weights (region argsort ll weights c1) := by
    unfold massOf
    refine List.single_le_sum ?_ _ (List.mem_map_of_mem (f := fun i => weights.getD i 0) hmem)
    intro x hx
    obtain ⟨i, _, rfl⟩ := List.mem_map.mp hx
    by_cases hi : i < weights.length
    · simpa [List.getElem?_eq_getElem hi] using hw0 _ (List.getElem_mem hi)
    · simp [List.getElem?_eq_none (not_lt.mp hi)]
  have := h4 hne
  linarith

/-- three rows, the most likely with 7/10 of the weight -/
example : (ndLimits (fun _ => [1, 0, 2]) ([5, 4, 9] : List ℚ) [2, 7, 1] [68 / 100, 95 / 100] [30, 10, 20]).toOption = none := by decide +kernel

/-- **C125** Fails to hold the fraction: the region always holds less than it was asked for. -/
theorem nd_region_fails {argsort : List K → List Nat} (hA : IsArgsort argsort) (ll weights : List K) (c : K)
    (hne : region argsort ll weights c ≠ []) : massOf weights (region argsort ll weights c) < c * weights.sum := by
  rw [mul_comm]
  exact (region_spec hA ll weights c).2.2.2.1 hne

/-! ### Means of the likelihood -/

theorem wsum_mono : ∀ (w x y : List ℝ), (∀ a ∈ w, 0 ≤ a) → List.Forall₂ (· ≤ ·) x y → w.length = x.length →
    (List.zipWith (· * ·) w x).sum ≤ (List.zipWith (· * ·) w y).sum
  | [], [], _, _, _, _ => by simp
  | a :: w, b :: x, _ :: _, hw, .cons h hs, hl => by
    simp only [List.zipWith_cons_cons, List.sum_cons]
    have := wsum_mono w x _ (fun a ha => hw a (List.mem_cons_of_mem _ ha)) hs (by simpa using hl)
    have := mul_le_mul_of_nonneg_left h (hw a (List.mem_cons_self ..))
    linarith

theorem wsum_lin (p q : ℝ) : ∀ (w x : List ℝ), w.length = x.length →
    (List.zipWith (· * ·) w (x.map (fun l => p * l + q))).sum = p * (List.zipWith (· * ·) w x).sum + q * w.sum
  | [], [], _ => by simp
  | a :: w, b :: x, h => by
    simp only [List.map_cons, List.zipWith_cons_cons, List.sum_cons, wsum_lin p q w x (by simpa using h)]
    ring

theorem forall₂_map_le {x : List ℝ} {f g : ℝ → ℝ} (h : ∀ l ∈ x, f l ≤ g l) : List.Forall₂ (· ≤ ·) (x.map f) (x.map g) := by
  induction x with
  | nil => exact .nil
  | cons a x ih => exact .cons (h a (List.mem_cons_self ..)) (ih (fun l hl => h l (List.mem_cons_of_mem _ hl)))

theorem wmean_le {w x : List ℝ} {f g : ℝ → ℝ} (hw : ∀ a ∈ w, 0 ≤ a) (hs : 0 < w.sum) (hl : w.length = x.length) (h : ∀ l ∈ x, f l ≤ g l) :
    wmean w (x.map f) ≤ wmean w (x.map g) := by
  unfold wmean
  exact div_le_div_of_nonneg_right (wsum_mono _ _ _ hw (forall₂_map_le h) (by simpa using hl)) hs.le

theorem wmean_lin {w x : List ℝ} (hs : 0 < w.sum) (hl : w.length = x.length) (p q : ℝ) :
    wmean w (x.map (fun l => p * l + q)) = p * wmean w x + q := by
  unfold wmean
  rw [wsum_lin p q w x hl]
  field_simp

/-- the mean of an exponential is at least the exponential of the mean -/
theorem exp_wmean_le {w x : List ℝ} (hw : ∀ a ∈ w, 0 ≤ a) (hs : 0 < w.sum) (hl : w.length = x.length) (p q : ℝ) :
    Real.exp (p * wmean w x + q) ≤ wmean w (x.map (fun l => Real.exp (p * l + q))) := by
  have h1 := wmean_le (f := fun l => Real.exp (p * wmean w x + q) * (p * l + q) + Real.exp (p * wmean w x + q) * (1 - (p * wmean w x + q)))
    (g := fun l => Real.exp (p * l + q)) hw hs hl (fun l _ => by
      have := Real.add_one_le_exp ((p * l + q) - (p * wmean w x + q))
      have h0 := Real.exp_pos (p * wmean w x + q)
      have h2 := mul_le_mul_of_nonneg_left this h0.le
      rw [← Real.exp_add] at h2
      have e : p * wmean w x + q + (p * l + q - (p * wmean w x + q)) = p * l + q := by ring
      rw [e] at h2
      linarith)
  have e : wmean w (x.map (fun l => Real.exp (p * wmean w x + q) * (p * l + q) + Real.exp (p * wmean w x + q) * (1 - (p * wmean w x + q)))) =
      Real.exp (p * wmean w x + q) := by
    have := wmean_lin hs hl (Real.exp (p * wmean w x + q) * p) (Real.exp (p * wmean w x + q) * q + Real.exp (p * wmean w x + q) * (1 - (p * wmean w x + q)))
    rw [show (fun l => Real.exp (p * wmean w x + q) * (p * l + q) + Real.exp (p * wmean w x + q) * (1 - (p * wmean w x + q))) =
      (fun l => Real.exp (p * wmean w x + q) * p * l + (Real.exp (p * wmean w x + q) * q + Real.exp (p * wmean w x + q) * (1 - (p * wmean w x + q)))) by
        funext l; ring, this]
    ring
  rwa [e] at h1

/-- **C124** The likelihood statistics are in order: best sample, minus log of the mean likelihood, mean of minus log, log of the mean inverse
likelihood; the complexity is not negative. -/
theorem means_ordered {w ll : List ℝ} (hw : ∀ a ∈ w, 0 ≤ a) (hs : 0 < w.sum) (hl : w.length = ll.length) (best : ℝ) (hbest : ∀ l ∈ ll, best ≤ l) :
    best ≤ logMeanLike w ll best ∧ logMeanLike w ll best ≤ wmean w ll ∧ wmean w ll ≤ logMeanInvLike w ll best ∧ 0 ≤ complexity w ll best := by
  have hm1 := exp_wmean_le hw hs hl (-1) best
  have hm2 := exp_wmean_le hw hs hl 1 (-best)
  have e1 : (fun l : ℝ => Real.exp (-1 * l + best)) = fun l => Real.exp (-(l - best)) := by funext l; congr 1; ring
  have e2 : (fun l : ℝ => Real.exp (1 * l + -best)) = fun l => Real.exp (l - best) := by funext l; congr 1; ring
  rw [e1] at hm1
  rw [e2] at hm2
  have hpos1 : 0 < wmean w (ll.map (fun l => Real.exp (-(l - best)))) := lt_of_lt_of_le (Real.exp_pos _) hm1
  have hle1 : wmean w (ll.map (fun l => Real.exp (-(l - best)))) ≤ 1 := by
    have := wmean_le (f := fun l => Real.exp (-(l - best))) (g := fun l => 0 * l + 1) hw hs hl (fun l h => by
      have : Real.exp (-(l - best)) ≤ 1 := Real.exp_le_one_iff.mpr (by linarith [hbest l h])
      linarith)
    rw [wmean_lin hs hl] at this
    linarith
  have hmean : best ≤ wmean w ll := by
    have := wmean_le (f := fun l => 0 * l + best) (g := fun l => 1 * l + 0) hw hs hl (fun l h => by linarith [hbest l h])
    rw [wmean_lin hs hl, wmean_lin hs hl] at this
    linarith
  have l1 := Real.log_le_log (Real.exp_pos _) hm1
  have l2 := Real.log_le_log (Real.exp_pos _) hm2
  rw [Real.log_exp] at l1 l2
  have l3 := Real.log_nonpos hpos1.le hle1
  refine ⟨?_, ?_, ?_, ?_⟩
  · unfold logMeanLike; linarith
  · unfold logMeanLike; linarith
  · unfold logMeanInvLike; linarith
  · unfold complexity; linarith

example : 3 ≤ logMeanLike [1, 2] [3, 5] 3 ∧ logMeanLike [1, 2] [3, 5] 3 ≤ 13 / 3 ∧ 13 / 3 ≤ logMeanInvLike [1, 2] [3, 5] 3 := by
  obtain ⟨h1, h2, h3, _⟩ := means_ordered (w := [1, 2]) (ll := [3, 5]) (by norm_num) (by norm_num) rfl 3 (by norm_num)
  have e : wmean ([1, 2] : List ℝ) [3, 5] = 13 / 3 := by norm_num [wmean]
  rw [e] at h2 h3
  exact ⟨h1, h2, h3⟩

end Verif.BestFit
