import Verif.Model.PlotStyle
import Verif.Props.BatchArgs

/-!
# Renamed settings and plot styles
-/

namespace Verif.PlotStyle
set_option linter.unusedSimpArgs false
set_option linter.unusedSectionVars false
open Verif.Py

variable {V : Type}

/-! ## Names -/

theorem sub2_cons_of_not {c : Char} (h : (c.isLower || c.isDigit) = false) (s : Str) : sub2 (c :: s) = c :: sub2 s := by
  cases s with
  | nil => rfl
  | cons u r => simp [sub2, h]

theorem sub2_cons_of_head {c : Char} {s : Str} (h : ∀ u, s.head? = some u → u.isUpper = false) : sub2 (c :: s) = c :: sub2 s := by
  cases s with
  | nil => rfl
  | cons u r => simp [sub2, h u rfl]

theorem sub1_noUpper : ∀ (n : Nat) (s : Str), (∀ c ∈ s, c.isUpper = false) → sub1 n s = s
  | 0, s, _ => rfl
  | n + 1, [], _ => rfl
  | n + 1, [c], _ => rfl
  | n + 1, c :: u :: rest, h => by
    have hu : u.isUpper = false := h u (by simp)
    simp only [sub1, hu, Bool.false_eq_true, false_and, and_false, if_false]
    rw [sub1_noUpper n (u :: rest) (fun x hx => h x (by simp [hx]))]

theorem sub2_noUpper : ∀ (s : Str), (∀ c ∈ s, c.isUpper = false) → sub2 s = s
  | [], _ => rfl
  | c :: s, h => by
    rw [sub2_cons_of_head (fun u hu => h u (by cases s with | nil => simp at hu | cons a b => simp at hu; simp [hu])),
      sub2_noUpper s (fun x hx => h x (by simp [hx]))]

theorem toLower_of_not_upper {c : Char} (h : c.isUpper = false) : c.toLower = c := by
  simp only [Char.toLower]
  simp only [Char.isUpper, Bool.and_eq_false_iff, decide_eq_false_iff_not] at h
  rw [dif_neg]
  exact fun hh => h hh

/-- **New names are not changed**: a name without capitals is itself. -/
theorem convertCamel_snake (s : Str) (h : ∀ c ∈ s, c.isUpper = false) : convertCamel s = s := by
  unfold convertCamel
  rw [sub1_noUpper _ _ h, sub2_noUpper _ h]
  induction s with
  | nil => rfl
  | cons c s ih =>
    rw [List.map_cons, toLower_of_not_upper (h c (by simp)), ih (fun x hx => h x (by simp [hx]))]

/-! ### Camel case to underscores -/

/-- a word of at least two small letters, with its first letter made a capital -/
structure CapWord where
  cap : Char
  tail : Str
  capU : cap.isUpper = true
  ne : tail ≠ []
  low : ∀ c ∈ tail, c.isLower = true

def CapWord.text (w : CapWord) : Str := w.cap :: w.tail
def CapWord.lower (w : CapWord) : Str := w.cap.toLower :: w.tail

/-- `nameWithSeveralWords` -/
def camel (first : Str) (ws : List CapWord) : Str := first ++ (ws.map CapWord.text).flatten
/-- `name_with_several_words` -/
def snake (first : Str) (ws : List CapWord) : Str := first ++ (ws.map (fun w => '_' :: w.lower)).flatten

theorem lower_not_upper {c : Char} (h : c.isLower = true) : c.isUpper = false := by
  simp only [Char.isLower, Bool.and_eq_true, decide_eq_true_eq] at h
  simp only [Char.isUpper, Bool.and_eq_false_iff, decide_eq_false_iff_not]
  rintro ⟨_, hh⟩
  have h1 := UInt32.le_iff_toNat_le.mp h.1
  have h2 := UInt32.le_iff_toNat_le.mp hh
  simp at h1 h2
  omega

theorem upper_not_lower {c : Char} (h : c.isUpper = true) : c.isLower = false := by
  cases hl : c.isLower with
  | false => rfl
  | true => rw [lower_not_upper hl] at h; simp at h

theorem upper_not_digit {c : Char} (h : c.isUpper = true) : c.isDigit = false := by
  simp only [Char.isUpper, Bool.and_eq_true, decide_eq_true_eq] at h
  simp only [Char.isDigit, Bool.and_eq_false_iff, decide_eq_false_iff_not]
  right
  intro hh
  have h1 := UInt32.le_iff_toNat_le.mp h.1
  have h2 := UInt32.le_iff_toNat_le.mp hh
  simp at h1 h2
  omega

theorem lower_ne_nl {c : Char} (h : c.isLower = true) : c ≠ '\n' := by
  rintro rfl
  simp at h

theorem upper_ne_nl {c : Char} (h : c.isUpper = true) : c ≠ '\n' := by
  rintro rfl
  simp at h

/-- what follows a word begins with a capital, or is the end -/
def Cut (s : Str) : Prop := ∀ u, s.head? = some u → u.isLower = false

theorem takeWhile_low {t s : Str} (ht : ∀ c ∈ t, c.isLower = true) (hs : Cut s) :
    (t ++ s).takeWhile Char.isLower = t ∧ (t ++ s).dropWhile Char.isLower = s := by
  induction t with
  | nil =>
    cases s with
    | nil => exact ⟨rfl, rfl⟩
    | cons u r =>
      have := hs u rfl
      simp [List.takeWhile_cons, List.dropWhile_cons, this]
  | cons c t ih =>
    have := ih (fun x hx => ht x (by simp [hx]))
    simp [List.takeWhile_cons, List.dropWhile_cons, ht c (by simp), this]

theorem cut_words (ws : List CapWord) : Cut (ws.map CapWord.text).flatten := by
  intro u hu
  cases ws with
  | nil => simp at hu
  | cons w ws =>
    simp [CapWord.text] at hu
    subst hu
    exact upper_not_lower w.capU

/-- the first pass puts an underscore before every second word -/
def pass1 : List CapWord → Str
  | [] => []
  | [w] => w.text
  | w :: v :: ws => w.text ++ '_' :: (v.text ++ pass1 ws)

/-- within small letters nothing happens until the next word, where the last letter takes it along -/
theorem sub1_low : ∀ (t : Str) (n : Nat) (ws : List CapWord), t ≠ [] → (∀ c ∈ t, c.isLower = true) → (t ++ (ws.map CapWord.text).flatten).length ≤ n →
    (∀ (m : Nat) (vs : List CapWord), vs.length < ws.length → (vs.map CapWord.text).flatten.length ≤ m → sub1 m (vs.map CapWord.text).flatten = pass1 vs) →
    sub1 n (t ++ (ws.map CapWord.text).flatten) = match ws with
      | [] => t
      | v :: vs => t ++ '_' :: (v.text ++ pass1 vs)
  | [], n, ws, h, _, _, _ => absurd rfl h
  | [c], n, ws, _, hl, hn, ih => by
    cases ws with
    | nil =>
      cases n <;> rfl
    | cons v vs =>
      obtain ⟨n, rfl⟩ : ∃ k, n = k + 1 := ⟨n - 1, by simp at hn; omega⟩
      have h1 : (v.tail ++ (vs.map CapWord.text).flatten).takeWhile Char.isLower = v.tail ∧
        (v.tail ++ (vs.map CapWord.text).flatten).dropWhile Char.isLower = (vs.map CapWord.text).flatten := takeWhile_low v.low (cut_words vs)
      have e : [c] ++ ((v :: vs).map CapWord.text).flatten = c :: v.cap :: (v.tail ++ (vs.map CapWord.text).flatten) := by simp [CapWord.text]
      rw [e, sub1, if_pos ⟨lower_ne_nl (hl c (by simp)), v.capU, by rw [h1.1]; exact v.ne⟩, h1.1, h1.2, ih n vs (by simp) (by
        simp [CapWord.text] at hn ⊢; omega)]
      simp [CapWord.text]
  | c :: d :: t, n, ws, _, hl, hn, ih => by
    obtain ⟨n, rfl⟩ : ∃ k, n = k + 1 := ⟨n - 1, by simp at hn; omega⟩
    have hd : d.isUpper = false := lower_not_upper (hl d (by simp))
    have := sub1_low (d :: t) n ws (by simp) (fun x hx => hl x (by simp [hx])) (by simp at hn ⊢; omega) ih
    simp only [List.cons_append, sub1, hd, Bool.false_eq_true, false_and, and_false, if_false] at this ⊢
    rw [this]
    cases ws <;> simp

theorem sub1_words : ∀ (k : Nat) (ws : List CapWord), ws.length ≤ k → ∀ n, (ws.map CapWord.text).flatten.length ≤ n → sub1 n (ws.map CapWord.text).flatten = pass1 ws
  | k, [], _, n, _ => by cases n <;> rfl
  | 0, w :: ws, h, _, _ => by simp at h
  | k + 1, w :: ws, h, n, hn => by
    obtain ⟨n, rfl⟩ : ∃ j, n = j + 1 := ⟨n - 1, by simp [CapWord.text] at hn; omega⟩
    have ih : ∀ (m : Nat) (vs : List CapWord), vs.length < ws.length → (vs.map CapWord.text).flatten.length ≤ m → sub1 m (vs.map CapWord.text).flatten = pass1 vs :=
      fun m vs hv hm => sub1_words k vs (by simp at h; omega) m hm
    have hlow := sub1_low w.tail n ws w.ne w.low (by simp [CapWord.text] at hn ⊢; omega) ih
    have e : ((w :: ws).map CapWord.text).flatten = w.cap :: (w.tail ++ (ws.map CapWord.text).flatten) := by simp [CapWord.text]
    rw [e]
    obtain ⟨d, t, hdt⟩ : ∃ d t, w.tail = d :: t := by
      cases ht : w.tail with
      | nil => exact absurd ht w.ne
      | cons d t => exact ⟨d, t, rfl⟩
    have hd : d.isUpper = false := lower_not_upper (w.low d (by simp [hdt]))
    have step : sub1 (n + 1) (w.cap :: (w.tail ++ (ws.map CapWord.text).flatten)) = w.cap :: sub1 n (w.tail ++ (ws.map CapWord.text).flatten) := by
      rw [hdt]
      simp [sub1, hd]
    rw [step, hlow]
    cases ws with
    | nil => simp [pass1, CapWord.text]
    | cons v vs => simp [pass1, CapWord.text]

/-- the second pass puts in the underscores that are missing -/
theorem sub2_low : ∀ (t : Str) (s : Str), t ≠ [] → (∀ c ∈ t, c.isLower = true) → (s = [] → sub2 (t ++ s) = t) ∧
    (∀ u r, s = u :: r → u.isUpper = true → sub2 (t ++ s) = t ++ '_' :: sub2 s) ∧
    (∀ u r, s = u :: r → u.isUpper = false → sub2 (t ++ s) = t ++ sub2 s)
  | [], s, h, _ => absurd rfl h
  | [c], s, _, hl => by
    have hc := hl c (by simp)
    refine ⟨?_, ?_, ?_⟩
    · rintro rfl; rfl
    · rintro u r rfl hu
      simp [sub2, hc, hu]
    · rintro u r rfl hu
      simp [sub2, hu]
  | c :: d :: t, s, _, hl => by
    have ih := sub2_low (d :: t) s (by simp) (fun x hx => hl x (by simp [hx]))
    have hd : d.isUpper = false := lower_not_upper (hl d (by simp))
    have e : sub2 (c :: d :: t ++ s) = c :: sub2 (d :: t ++ s) := by simp [sub2, hd]
    rw [e]
    refine ⟨?_, ?_, ?_⟩
    · intro h; rw [ih.1 h]
    · intro u r h hu; rw [ih.2.1 u r h hu]; rfl
    · intro u r h hu; rw [ih.2.2 u r h hu]; rfl

theorem sub2_capWord (w : CapWord) (s : Str) : sub2 (w.text ++ s) = w.cap :: sub2 (w.tail ++ s) := by
  have : (w.cap.isLower || w.cap.isDigit) = false := by rw [upper_not_lower w.capU, upper_not_digit w.capU]; rfl
  exact sub2_cons_of_not this _

/-- all underscores, before the words are put in small letters -/
def full : List CapWord → Str
  | [] => []
  | [w] => w.text
  | w :: v :: ws => w.text ++ '_' :: full (v :: ws)

theorem pass1_head : ∀ (ws : List CapWord), (ws = [] ∧ pass1 ws = []) ∨ ∃ u r, pass1 ws = u :: r ∧ u.isUpper = true
  | [] => Or.inl ⟨rfl, rfl⟩
  | [w] => Or.inr ⟨w.cap, w.tail, rfl, w.capU⟩
  | w :: v :: ws => Or.inr ⟨w.cap, w.tail ++ '_' :: (v.text ++ pass1 ws), rfl, w.capU⟩

theorem sub2_us (s : Str) : sub2 ('_' :: s) = '_' :: sub2 s := sub2_cons_of_not (by decide) s

theorem sub2_pass1 : ∀ (ws : List CapWord), sub2 (pass1 ws) = full ws
  | [] => rfl
  | [w] => by
    have := sub2_capWord w []
    rw [List.append_nil, List.append_nil] at this
    have h2 := (sub2_low w.tail [] w.ne w.low).1 rfl
    rw [List.append_nil] at h2
    rw [pass1, this, h2]; rfl
  | [w, v] => by
    have ih := sub2_pass1 [v]
    rw [pass1, sub2_capWord, (sub2_low w.tail _ w.ne w.low).2.2 '_' _ rfl (by decide), sub2_us]
    rw [show pass1 ([] : List CapWord) = [] from rfl, List.append_nil]
    rw [pass1] at ih
    rw [ih]; rfl
  | w :: v :: x :: ws => by
    have ih := sub2_pass1 (x :: ws)
    rcases pass1_head (x :: ws) with h | ⟨u, r, h, hu⟩
    · simp at h
    · rw [pass1, sub2_capWord, (sub2_low w.tail _ w.ne w.low).2.2 '_' _ rfl (by decide), sub2_us, sub2_capWord,
        (sub2_low v.tail _ v.ne v.low).2.1 u r h hu, ih]
      simp [full, CapWord.text]

theorem map_lower_low {t : Str} (h : ∀ c ∈ t, c.isLower = true) : t.map Char.toLower = t := by
  induction t with
  | nil => rfl
  | cons c t ih => rw [List.map_cons, toLower_of_not_upper (lower_not_upper (h c (by simp))), ih (fun x hx => h x (by simp [hx]))]

theorem map_full : ∀ (ws : List CapWord) (w : CapWord), (full (w :: ws)).map Char.toLower = w.lower ++ (ws.map (fun w => '_' :: w.lower)).flatten
  | [], w => by simp [full, CapWord.text, CapWord.lower, map_lower_low w.low]
  | v :: ws, w => by
    have := map_full ws v
    have us : Char.toLower '_' = '_' := by decide
    simp only [full, CapWord.text, List.map_append, List.map_cons, map_lower_low w.low, us, this]
    simp [CapWord.lower]

/-- **Old names in camel case are found under their new names with underscores**, for words of at least two letters. -/
theorem convertCamel_camel (first : Str) (ws : List CapWord) (hne : first ≠ []) (hl : ∀ c ∈ first, c.isLower = true) :
    convertCamel (camel first ws) = snake first ws := by
  have h1 : sub1 (camel first ws).length (camel first ws) = match ws with
      | [] => first
      | v :: vs => first ++ '_' :: (v.text ++ pass1 vs) :=
    sub1_low first _ ws hne hl (le_refl _) (fun m vs _ hm => sub1_words vs.length vs (le_refl _) m hm)
  unfold convertCamel
  rw [h1]
  cases ws with
  | nil =>
    have := (sub2_low first [] hne hl).1 rfl
    rw [List.append_nil] at this
    simp [snake, this, map_lower_low hl]
  | cons v vs =>
    have hp : sub2 (v.text ++ pass1 vs) = full (v :: vs) := by
      cases vs with
      | nil => exact (List.append_nil v.text).symm ▸ sub2_pass1 [v]
      | cons x xs =>
        rcases pass1_head (x :: xs) with h | ⟨u, r, h, hu⟩
        · simp at h
        · rw [sub2_capWord, (sub2_low v.tail _ v.ne v.low).2.1 u r h hu, sub2_pass1]
          simp [full, CapWord.text]
    simp only
    rw [(sub2_low first _ hne hl).2.2 '_' _ rfl (by decide), sub2_us, hp]
    simp only [List.map_append, List.map_cons, map_lower_low hl, map_full]
    have us : Char.toLower '_' = '_' := by decide
    simp [snake, us]

example : convertCamel c!"legendFracSubplotMargin" = c!"legend_frac_subplot_margin" ∧ convertCamel c!"plotMeanlikes" = c!"plot_meanlikes" := by decide

/-! ## Attributes -/

/-- **What is set under a name is read back under it**, also for old names. -/
theorem set_get {o o' : Obj V} {name : Str} {v : V} (h : setAttr o name v = .ok o') (hr : mapName o name ≠ .removed) : getAttr o' name = .ok (some v) := by
  unfold setAttr at h
  unfold getAttr
  have key : ∀ o' : Obj V, mapName o' name = .at v name ∨ (∃ n, mapName o' name = .at v n) → (match mapName o' name with
      | .missing => .error .attribute
      | .removed => .ok none
      | .at v _ => .ok (some v) : Except Err (Option V)) = .ok (some v) := by
    rintro o' (h | ⟨n, h⟩) <;> rw [h]
  cases hm : mapName o name with
  | removed => exact absurd hm hr
  | missing =>
    rw [hm] at h
    simp only at h
    split at h
    · simp at h
    · simp only [Except.ok.injEq] at h
      subst h
      refine key _ (Or.inl ?_)
      simp only [mapName, Dict.get?_set_self]
  | «at» w n =>
    rw [hm] at h
    simp only [Except.ok.injEq] at h
    subst h
    unfold mapName at hm
    cases hn : o.attrs.get? name with
    | some x =>
      rw [hn] at hm
      simp only [Found.at.injEq] at hm
      obtain ⟨_, rfl⟩ := hm
      refine key _ (Or.inl ?_)
      simp only [mapName, Dict.get?_set_self]
    | none =>
      rw [hn] at hm
      simp only at hm
      cases hnew : newName o name with
      | none => rw [hnew] at hm; simp at hm
      | some n2 =>
        rw [hnew] at hm
        simp only at hm
        cases hg : o.attrs.get? n2 with
        | none => rw [hg] at hm; simp at hm
        | some x =>
          rw [hg] at hm
          simp only [Found.at.injEq] at hm
          obtain ⟨_, rfl⟩ := hm
          have hne : name ≠ n2 := by rintro rfl; rw [hn] at hg; simp at hg
          refine key _ (Or.inr ⟨n2, ?_⟩)
          have e : newName ({ o with attrs := o.attrs.set n2 v } : Obj V) name = some n2 := hnew
          simp only [mapName, Dict.get?_set_of_ne _ _ hne, hn, e, Dict.get?_set_self]

example : (setAttr settingsObj c!"fontsize" c!"12").toOption.map (fun o => getAttr o c!"fontsize") = some (.ok (some c!"12")) := by decide +kernel

/-- **An old name is another name for the new one**: setting it sets the new attribute and no other. -/
theorem set_old {o : Obj V} {old new : Str} (hold : o.attrs.get? old = none) (hn : newName o old = some new) {w : V} (hw : o.attrs.get? new = some w) (v : V) :
    ∃ o', setAttr o old v = .ok o' ∧ getAttr o' new = .ok (some v) ∧ ∀ k, k ≠ new → o'.attrs.get? k = o.attrs.get? k := by
  refine ⟨{ o with attrs := o.attrs.set new v }, ?_, ?_, ?_⟩
  · simp [setAttr, mapName, hold, hn, hw]
  · simp [getAttr, mapName, Dict.get?_set_self]
  · intro k hk
    exact Dict.get?_set_of_ne _ _ hk

example : (setAttr settingsObj c!"lw1" c!"2").toOption.map (fun o => (getAttr o c!"linewidth", getAttr o c!"lw1", getAttr o c!"linewidth_contour")) =
    some (.ok (some c!"2"), .ok (some c!"2"), .ok (some c!"linewidth_contour")) := by decide +kernel

/-- **Unknown settings are refused**, when the class asks for it, and nothing is stored. -/
theorem unknown_refused {o : Obj V} (hs : o.strict = true) {name : Str} (h : o.attrs.get? name = none)
    (hn : ∃ n, newName o name = some n ∧ o.attrs.get? n = none) (v : V) : setAttr o name v = .error .attribute ∧ getAttr o name = .error .attribute := by
  obtain ⟨n, h1, h2⟩ := hn
  simp [setAttr, getAttr, mapName, h, h1, h2, hs]

example : (setAttr settingsObj c!"no_such" c!"2").isOk = false ∧ getAttr settingsObj c!"no_such" = .error .attribute := by decide +kernel

/-- **Removed settings are ignored.** -/
theorem removed_ignored {o : Obj V} {name : Str} (h : o.attrs.get? name = none) (hn : newName o name = none) (v : V) :
    setAttr o name v = .ok o ∧ getAttr o name = .ok none := by
  simp [setAttr, getAttr, mapName, h, hn]

example : (setAttr settingsObj c!"tick_prune" c!"2").toOption.map (fun o => o.attrs) = some settingsObj.attrs ∧ getAttr settingsObj c!"tick_prune" = .ok none := by decide +kernel

example : (setAttr settingsObj c!"lw_contour" c!"2").toOption.map (fun o => getAttr o c!"linewidth_contour") = some (.ok (some c!"2")) ∧
    (setAttr settingsObj c!"axesFontsize" c!"9").toOption.map (fun o => getAttr o c!"axes_fontsize") = some (.ok (some c!"9")) ∧
    getAttr settingsObj c!"tick_prune" = .ok none ∧ (setAttr settingsObj c!"linewidht" c!"2").isOk = false := by
  refine ⟨?_, ?_, ?_, ?_⟩ <;> decide +kernel

/-- the old names of the settings that are still to be known, with their new names -/
def oldNames : List (Str × Str) :=
  [(c!"lab_fontsize", c!"axes_labelsize"), (c!"colorbar_rotation", c!"colorbar_tick_rotation"), (c!"font_size", c!"fontsize"), (c!"lineM", c!"line_styles"),
   (c!"lw1", c!"linewidth"), (c!"lw_contour", c!"linewidth_contour"), (c!"lw_likes", c!"linewidth_meanlikes"), (c!"x_label_rotation", c!"axis_tick_x_rotation")]

/-- all of them but one -/
theorem old_names_partial : ∀ p ∈ oldNames, p.1 ≠ c!"font_size" → mapName settingsObj p.1 = .at p.2 p.2 := by
  unfold oldNames
  simp only [List.forall_mem_cons, List.not_mem_nil, false_imp_iff, implies_true, and_true]
  refine ⟨?_, ?_, ?_, ?_, ?_, ?_, ?_, ?_⟩ <;> first | (intro _; decide +kernel) | (intro h; exact absurd rfl h)

/-- the full statement: all old names are known -/
def OldNamesKnown : Prop := ∀ p ∈ oldNames, mapName settingsObj p.1 = .at p.2 p.2

/-- The table has the old name `font_size` with a blank at its end (plots.py:134), so that the old name is refused as unknown. -/
theorem font_size_fails : ¬ OldNamesKnown := by
  intro h
  have := h (c!"font_size", c!"fontsize") (by simp [oldNames])
  revert this
  decide +kernel

/-- the full statement: the settings the plotter reads exist -/
def SettingsReadExist : Prop := ∀ name ∈ [c!"linewidth", c!"linewidth_contour", c!"linewidth_likes"], ∃ v, getAttr settingsObj name = .ok v

/-- Plots with mean likelihoods read the setting `linewidth_likes` (plots.py:984), which does not exist (it is `linewidth_meanlikes`, plots.py:210)
and is no old name: they fail. -/
theorem meanlikes_fails : ¬ SettingsReadExist := by
  intro h
  obtain ⟨v, h⟩ := h c!"linewidth_likes" (by simp)
  have : getAttr settingsObj c!"linewidth_likes" = .error .attribute := by decide +kernel
  rw [this] at h
  cases h

/-- the full statement: objects of subclasses know the old names of their base classes -/
def SubclassKnows : Prop := ∀ p ∈ oldNames, p.1 ≠ c!"font_size" → mapName subclassObj p.1 = .at p.2 p.2

/-- Old names are looked up only in the table of the object's own class (_base.py:17): settings of a subclass refuse them. -/
theorem subclass_fails : ¬ SubclassKnows := by
  intro h
  have := h (c!"lw1", c!"linewidth") (by simp [oldNames]) (by decide)
  revert this
  decide +kernel

/-! ## Styles -/

/-- the manager with base settings `r0`, in the style that is active -/
structure Good (r0 : Rc) (m : Mgr) : Prop where
  known : ∃ st, m.styles.get? m.active = some st
  dflt : ∃ st, m.styles.get? defaultStyle = some st ∧ st = []
  orig : m.orig = if m.active = defaultStyle then none else some r0
  rc : ∀ st, m.styles.get? m.active = some st → m.rc = r0.update st

theorem setActive_good {r0 : Rc} {m m' : Mgr} (h : Good r0 m) {name old : Str} (hs : setActive m name = .ok (old, m')) :
    Good r0 m' ∧ m'.active = name ∧ old = m.active ∧ m'.styles = m.styles := by
  unfold setActive at hs
  split at hs
  · rename_i e
    simp only [Except.ok.injEq, Prod.mk.injEq] at hs
    obtain ⟨rfl, rfl⟩ := hs
    exact ⟨h, e.symm, rfl, rfl⟩
  · rename_i e
    split at hs
    · simp at hs
    · rename_i st hst
      simp only [Except.ok.injEq, Prod.mk.injEq] at hs
      obtain ⟨rfl, rfl⟩ := hs
      have hor : m.orig.getD m.rc = r0 := by
        rw [h.orig]
        by_cases ha : m.active = defaultStyle
        · rw [if_pos ha]
          obtain ⟨st, h1, h2⟩ := h.dflt
          rw [← ha] at h1
          have := h.rc st h1
          rw [h2] at this
          exact this
        · rw [if_neg ha]; rfl
      refine ⟨⟨⟨st, hst⟩, h.dflt, ?_, ?_⟩, rfl, rfl, rfl⟩
      · simp only [hor]
      · intro st2 hst2
        simp only at hst2 ⊢
        rw [hst] at hst2
        cases hst2
        rw [hor]

example : (setActive { styles := [(defaultStyle, []), (c!"planck", [(c!"font.size", c!"8")])], active := defaultStyle, rc := [(c!"font.size", c!"10")] } c!"planck").toOption.map
    (fun r => (r.1, r.2.active, r.2.rc)) = some (defaultStyle, c!"planck", [(c!"font.size", c!"8")]) := by decide

/-- calls that keep the invariant: no change of `rcParams` by the user, no new definition of the active or the default style -/
def Clean (m : Mgr) : Op → Prop
  | .activate _ => True
  | .add n _ _ => n ≠ m.active ∧ n ≠ defaultStyle
  | .plotter _ => True
  | .rc _ _ => False

theorem step_good {r0 : Rc} {m : Mgr} (h : Good r0 m) (op : Op) (hc : Clean m op) : Good r0 (step m op) := by
  have hact : ∀ (m : Mgr), Good r0 m → ∀ n, Good r0 (match setActive m n with | .ok r => r.2 | .error _ => m) := by
    intro m h n
    cases hs : setActive m n with
    | error e => exact h
    | ok r => exact (setActive_good h (old := r.1) (m' := r.2) hs).1
  cases op with
  | activate n => exact hact m h n
  | rc k v => exact absurd hc (by simp [Clean])
  | add n st a =>
    obtain ⟨hn, hd⟩ := hc
    have h2 : Good r0 { m with styles := m.styles.set n st } := by
      refine ⟨?_, ?_, h.orig, ?_⟩
      · obtain ⟨s, hs⟩ := h.known
        exact ⟨s, by rw [Dict.get?_set_of_ne _ _ (Ne.symm hn)]; exact hs⟩
      · obtain ⟨s, hs⟩ := h.dflt
        exact ⟨s, by rw [Dict.get?_set_of_ne _ _ (Ne.symm hd)]; exact hs⟩
      · intro s hs
        simp only at hs
        rw [Dict.get?_set_of_ne _ _ (Ne.symm hn)] at hs
        exact h.rc s hs
    simp only [step, addStyle]
    cases a with
    | false => exact h2
    | true =>
      simp only [if_true]
      cases hs : setActive { m with styles := m.styles.set n st } n with
      | error e => exact h2
      | ok r => exact (setActive_good h2 (old := r.1) (m' := r.2) hs).1
  | plotter s =>
    cases s with
    | none =>
      simp only [step, activeClass, bind, Except.bind]
      cases hg : m.styles.get? m.active with
      | none => exact h
      | some st => exact h
    | some n =>
      simp only [step, activeClass, bind, Except.bind]
      cases hs : setActive m n with
      | error e => exact h
      | ok r =>
        have h2 := (setActive_good h (old := r.1) (m' := r.2) hs).1
        simp only [Except.map]
        cases hg : r.2.styles.get? r.2.active with
        | none => exact h
        | some st => exact h2

example : (step (step { styles := [(defaultStyle, []), (c!"planck", [(c!"font.size", c!"8")])], active := defaultStyle, rc := [(c!"font.size", c!"10")] } (.activate c!"planck"))
    (.activate defaultStyle)).rc = [(c!"font.size", c!"10")] := by decide

/-- all calls of a sequence are clean when they come -/
def AllClean : Mgr → List Op → Prop
  | _, [] => True
  | m, op :: ops => Clean m op ∧ AllClean (step m op) ops

theorem run_good {r0 : Rc} : ∀ (ops : List Op) (m : Mgr), Good r0 m → AllClean m ops → Good r0 (ops.foldl step m)
  | [], _, h, _ => h
  | op :: ops, m, h, hc => run_good ops (step m op) (step_good h op hc.1) hc.2

/-- the manager as it is at import (plots.py:3283-3285) -/
def initial (r0 : Rc) : Mgr := { styles := [(defaultStyle, [])], active := defaultStyle, rc := r0 }

theorem initial_good (r0 : Rc) : Good r0 (initial r0) := by
  refine ⟨⟨[], rfl⟩, ⟨[], rfl, rfl⟩, rfl, ?_⟩
  intro st h
  have : (initial r0).styles.get? (initial r0).active = some [] := rfl
  rw [this] at h
  cases h
  rfl

/-- **The parameters of matplotlib are those of the start with the active style's own laid over**, whatever styles were active before. -/
theorem rc_of_style (r0 : Rc) (ops : List Op) (hc : AllClean (initial r0) ops) : ∃ st, (ops.foldl step (initial r0)).styles.get? (ops.foldl step (initial r0)).active = some st ∧
    (ops.foldl step (initial r0)).rc = r0.update st := by
  have h := run_good ops _ (initial_good r0) hc
  obtain ⟨st, hst⟩ := h.known
  exact ⟨st, hst, h.rc st hst⟩

/-- **Going back to the default style restores the parameters of the start.** -/
theorem back_to_default (r0 : Rc) (ops : List Op) (hc : AllClean (initial r0) ops) (m : Mgr) (old : Str)
    (h : setActive (ops.foldl step (initial r0)) defaultStyle = .ok (old, m)) : m.rc = r0 ∧ m.orig = none ∧ old = (ops.foldl step (initial r0)).active := by
  have hg := setActive_good (run_good ops _ (initial_good r0) hc) h
  obtain ⟨st, h1, h2⟩ := hg.1.dflt
  refine ⟨?_, ?_, hg.2.2.1⟩
  · have := hg.1.rc st (by rw [hg.2.1]; exact h1)
    rw [h2] at this
    exact this
  · rw [hg.1.orig, if_pos hg.2.1]

/-- **Unknown styles are refused and change nothing.** -/
theorem unknown_style (m : Mgr) (name : Str) (hn : name ≠ m.active) (h : m.styles.get? name = none) : setActive m name = .error .value := by
  simp [setActive, hn, h]

example : (setActive { styles := [(defaultStyle, [])], active := defaultStyle, rc := [] } c!"planck").isOk = false := by decide

/-- an example: two styles -/
def exOps : List Op := [.add c!"planck" [(c!"font.size", c!"8"), (c!"text.usetex", c!"True")] true, .add c!"tab10" [] false, .activate c!"tab10"]

example : ((exOps.foldl step (initial [(c!"font.size", c!"10")])).rc, (exOps.foldl step (initial [(c!"font.size", c!"10")])).active) = ([(c!"font.size", c!"10")], c!"tab10") ∧
    ((exOps.take 1).foldl step (initial [(c!"font.size", c!"10")])).rc = [(c!"font.size", c!"8"), (c!"text.usetex", c!"True")] := by decide

example : AllClean (initial [(c!"font.size", c!"10")]) exOps := by
  refine ⟨⟨by decide, by decide⟩, ⟨by decide, by decide⟩, trivial, trivial⟩

/-- the full statement: defining and activating a style makes its parameters active -/
def AddActivates : Prop := ∀ (m m' : Mgr) (name : Str) (st : Rc), addStyle m name st true = .ok m' → ∀ k v, st.get? k = some v → m'.rc.get? k = some v

/-- for a style that is not active already -/
theorem add_activates_partial (m m' : Mgr) (name : Str) (st : Rc) (hn : name ≠ m.active) (hw : st.WF) (h : addStyle m name st true = .ok m') (k v : Str)
    (hk : st.get? k = some v) : m'.rc.get? k = some v := by
  simp only [addStyle, if_true, setActive, if_neg hn, Dict.get?_set_self, Except.map, Except.ok.injEq] at h
  subst h
  simp only
  rw [Batch.get?_update hw, hk]
  rfl

example : (addStyle { styles := [(defaultStyle, [])], active := defaultStyle, rc := [(c!"font.size", c!"10")] } c!"planck" [(c!"font.size", c!"8")] true).toOption.map (fun m => m.rc) =
    some [(c!"font.size", c!"8")] := by decide

/-- Defining the active style anew with `activate=True` does nothing to the parameters, because the name is already active (plots.py:3295). -/
theorem redefine_fails : ¬ AddActivates := by
  intro h
  have := h (initial []) { initial [] with styles := [(defaultStyle, [(c!"font.size", c!"8")])] } defaultStyle [(c!"font.size", c!"8")] rfl c!"font.size" c!"8" (by decide)
  revert this
  decide

/-- the full statement: a plotter in another style does not change the active style -/
def PlotterLocal : Prop := ∀ (m m' : Mgr) (s : Str) (st : Rc), activeClass m (some s) = .ok (st, m') → m'.active = m.active

/-- Asking for one plotter in another style makes this style the active one for all plotters after it (plots.py:3288-3289). -/
theorem plotter_style_fails : ¬ PlotterLocal := by
  intro h
  have := h { initial [] with styles := [(defaultStyle, []), (c!"tab10", [])] } { initial [] with styles := [(defaultStyle, []), (c!"tab10", [])], active := c!"tab10", orig := some [] }
    c!"tab10" [] rfl
  revert this
  decide

/-- the full statement: parameters that the user sets and no style touches are kept -/
def UserRcKept : Prop := ∀ (r0 : Rc) (ops1 ops2 : List Op) (k v : Str), AllClean (initial r0) ops1 → AllClean (step (ops1.foldl step (initial r0)) (.rc k v)) ops2 →
  (∀ (n : Str) (st : Rc) (a : Bool), Op.add n st a ∈ ops1 ++ ops2 → st.get? k = none) → (ops2.foldl step (step (ops1.foldl step (initial r0)) (.rc k v))).rc.get? k = some v

/-- Parameters set by the user while a style is active are lost when the style is changed (plots.py:3303-3304). -/
theorem user_rc_fails : ¬ UserRcKept := by
  intro h
  have := h [] [.add c!"tab10" [] true] [.activate defaultStyle] c!"figure.dpi" c!"300" ⟨⟨by decide, by decide⟩, trivial⟩ ⟨trivial, trivial⟩ (by
    intro n st a hm
    simp only [List.cons_append, List.nil_append, List.mem_cons, Op.add.injEq, reduceCtorEq, List.not_mem_nil, or_false] at hm
    rw [hm.2.1]
    rfl)
  revert this
  decide

end Verif.PlotStyle
