import Verif.Props.IniSpec
import Verif.Lemmas.Str

/-! Lemmas relating `readFile` to the definition stream. -/

namespace Verif.IniFile
open Verif.Py

theorem find_takeWhile {ch : Char} {s : Str} {i : Nat} (h : find ch s = some i) :
    s.take i = s.takeWhile (· ≠ ch) ∧ s.drop (i + 1) = (s.dropWhile (· ≠ ch)).tail := by
  induction s generalizing i with
  | nil => simp [find] at h
  | cons c s ih =>
    unfold find at h ih
    rw [List.findIdx?_cons] at h
    split at h
    · rename_i hc
      cases h
      have hc : c = ch := by simpa using hc
      simp [hc]
    · rename_i hc
      cases hf : List.findIdx? (fun x => x == ch) s with
      | none => rw [hf] at h; simp at h
      | some j =>
        rw [hf] at h
        simp at h
        subst h
        have hc : c ≠ ch := by simpa using hc
        obtain ⟨h1, h2⟩ := ih hf
        simp [hc, h1, h2]

theorem find_isSome_iff {ch : Char} {s : Str} : (∃ i, find ch s = some i) ↔ ch ∈ s := by
  constructor
  · rintro ⟨i, h⟩
    have := (find_some h).2.1
    rw [this]; simp
  · intro h
    cases hf : find ch s with
    | none => exact absurd h (find_eq_none.mp hf)
    | some i => exact ⟨i, rfl⟩

theorem startsWith_iff {p s : Str} : startsWith p s = true ↔ p <+: s := List.isPrefixOf_iff_prefix

theorem startsWith_hash {s : Str} : startsWith c!"#" s = true ↔ s.head? = some '#' := by
  rw [startsWith_iff]
  constructor
  · rintro ⟨t, rfl⟩; rfl
  · intro h
    cases s with
    | nil => simp at h
    | cons c s => simp at h; subst h; exact ⟨s, rfl⟩

theorem mem_last_split {ch : Char} : ∀ {t : Str}, ch ∈ t → ∃ a b, t = a ++ ch :: b ∧ ch ∉ b
  | c :: t, h => by
    by_cases ht : ch ∈ t
    · obtain ⟨a, b, e, hb⟩ := mem_last_split ht
      exact ⟨c :: a, b, by rw [e]; rfl, hb⟩
    · rcases List.mem_cons.1 h with rfl | h
      · exact ⟨[], t, rfl, ht⟩
      · exact absurd h ht

theorem dropWhile_ne_append {ch : Char} {a b : Str} (h : ch ∉ a) : (a ++ ch :: b).dropWhile (· ≠ ch) = ch :: b := by
  induction a with
  | nil => simp
  | cons c a ih =>
    simp only [List.mem_cons, not_or] at h
    have hc : c ≠ ch := fun e => h.1 e.symm
    rw [List.cons_append, List.dropWhile_cons_of_pos (by simpa using hc)]
    exact ih h.2

theorem between_eq (p t : Str) (h1 : '(' ∉ p) : between (p ++ '(' :: t) =
    if ')' ∈ t then (t.reverse.dropWhile (· ≠ ')')).tail.reverse else t.dropLast := by
  unfold between
  rw [dropWhile_ne_append h1]
  rfl

/-- the slice of the code is the text between the brackets -/
theorem bracketArg_eq (p t : Str) (h1 : '(' ∉ p) (h2 : ')' ∉ p) : bracketArg (p ++ '(' :: t) = between (p ++ '(' :: t) := by
  have hlo : find '(' (p ++ '(' :: t) = some p.length := find_append h1
  rw [between_eq p t h1]
  unfold bracketArg
  rw [hlo]
  simp only []
  by_cases ht : ')' ∈ t
  · obtain ⟨a, b, rfl, hb⟩ := mem_last_split ht
    rw [if_pos ht]
    have e : (p ++ '(' :: (a ++ ')' :: b)).reverse = b.reverse ++ ')' :: (a.reverse ++ '(' :: p.reverse) := by simp
    have hhi : find ')' (p ++ '(' :: (a ++ ')' :: b)).reverse = some b.reverse.length := by
      rw [e]; exact find_append (by simpa using hb)
    rw [hhi]
    simp only [List.length_reverse]
    have e2 : (a ++ ')' :: b).reverse = b.reverse ++ ')' :: a.reverse := by simp
    rw [e2, dropWhile_ne_append (by simpa using hb)]
    simp only [List.tail_cons, List.reverse_reverse]
    have e3 : (p ++ '(' :: (a ++ ')' :: b)).length - 1 - b.length = (p ++ '(' :: a).length := by
      simp; omega
    have e4 : p ++ '(' :: (a ++ ')' :: b) = (p ++ '(' :: a) ++ ')' :: b := by simp
    rw [e3, e4, List.take_left, ← List.drop_drop]
    simp
  · rw [if_neg ht]
    have hhi : find ')' (p ++ '(' :: t).reverse = none := by
      rw [find_eq_none]
      simp only [List.mem_reverse, List.mem_append, List.mem_cons, not_or]
      exact ⟨h2, by decide, ht⟩
    rw [hhi]
    simp only []
    rw [List.dropLast_eq_take]
    have : (p ++ '(' :: t).length - 1 = p.length + t.length := by simp
    rw [this, List.take_append, List.drop_append]
    cases t with
    | nil => simp
    | cons c t => simp

theorem bracketArg_prefix {p s : Str} (h1 : '(' ∉ p) (h2 : ')' ∉ p) (h : (p ++ ['(']) <+: s) : bracketArg s = between s := by
  obtain ⟨t, rfl⟩ := h
  have := bracketArg_eq p t h1 h2
  simpa using this

/-- `readLine` in terms of the kind of the line -/
theorem readLine_kind (env : Str → Option Str) (nd : Bool) (l : Loop) (line : Str) :
    readLine env nd l line =
    match lineKind line with
    | .stop => .ok (.stop l)
    | .comment t => .ok (.go { l with comments := l.comments ++ [t] })
    | .incl f => .ok (.go { l with fileincludes := l.fileincludes ++ [f], comments := [] })
    | .dflt f => .ok (.go { l with filedefaults := l.filedefaults ++ [f], comments := [] })
    | .blank => .ok (.go { l with comments := [] })
    | .setting key raw =>
      if l.ini.params.has key then
        if nd then .ok (.go l) else .error (.dup key)
      else
        match readValue env l.ini.expandEnv raw with
        | .error e => .error e
        | .ok value =>
          .ok (.go { l with
            ini := { l.ini with
              params := l.ini.params.set key (.str value)
              readOrder := l.ini.readOrder ++ [key]
              comments := if l.comments.length ≠ 0 then l.ini.comments.set key l.comments
                          else l.ini.comments }
            comments := [] }) := by
  unfold readLine lineKind
  simp only
  generalize strip line = s
  by_cases h1 : s = c!"END"
  · rw [if_pos h1, if_pos h1]
  rw [if_neg h1, if_neg h1]
  by_cases h2 : s.head? = some '#'
  · rw [if_pos (startsWith_hash.mpr h2), if_pos h2]
    simp
  rw [if_neg (fun h => h2 (startsWith_hash.mp h)), if_neg h2]
  by_cases h3 : c!"INCLUDE(" <+: s
  · rw [if_pos (startsWith_iff.mpr h3), if_pos h3,
      bracketArg_prefix (p := c!"INCLUDE") (by decide) (by decide) h3]
  rw [if_neg (fun h => h3 (startsWith_iff.mp h)), if_neg h3]
  by_cases h4 : c!"DEFAULT(" <+: s
  · rw [if_pos (startsWith_iff.mpr h4), if_pos h4,
      bracketArg_prefix (p := c!"DEFAULT") (by decide) (by decide) h4]
  rw [if_neg (fun h => h4 (startsWith_iff.mp h)), if_neg h4]
  by_cases h5 : '=' ∈ s
  · have hne : s ≠ [] := by rintro rfl; simp at h5
    rw [if_pos h5, if_pos hne]
    obtain ⟨i, hi⟩ := find_isSome_iff.mpr h5
    obtain ⟨ht, hd⟩ := find_takeWhile hi
    rw [hi]
    simp only [ht, hd]
    rfl
  · rw [if_neg h5]
    by_cases hne : s = []
    · simp [hne]
    · rw [if_pos hne, find_eq_none.mpr h5]

/-- the part of the state that decides the stored table -/
structure Core where
  params : Dict Str Val
  readOrder : List Str

def Ini.core (i : Ini) : Core := ⟨i.params, i.readOrder⟩

/-- effect of one definition -/
def applyDef (env : Str → Option Str) (ex : Bool) (c : Core) (d : Def) : Except Err Core :=
  if c.params.has d.key then
    if d.isDefault then .ok c else .error (.dup d.key)
  else match readValue env ex d.raw with
    | .error e => .error e
    | .ok v => .ok ⟨c.params.set d.key (.str v), c.readOrder ++ [d.key]⟩

def applyDefs (env : Str → Option Str) (ex : Bool) : Core → List Def → Except Err Core
  | c, [] => .ok c
  | c, d :: ds => match applyDef env ex c d with
    | .error e => .error e
    | .ok c' => applyDefs env ex c' ds

theorem applyDefs_append (env : Str → Option Str) (ex : Bool) (c : Core) (a b : List Def) :
    applyDefs env ex c (a ++ b) = match applyDefs env ex c a with
      | .error e => .error e
      | .ok c' => applyDefs env ex c' b := by
  induction a generalizing c with
  | nil => rfl
  | cons d a ih =>
    simp only [List.cons_append, applyDefs]
    cases applyDef env ex c d with
    | error e => rfl
    | ok c' => exact ih c'

/-- the fields of the loop state other than comments after reading lines -/
theorem readLines_spec (env : Str → Option Str) (nd : Bool) (l : Loop) (lines : List Str) :
    let ls := (lines.map lineKind).takeWhile (· ≠ .stop)
    match readLines env nd l lines with
    | .error e => applyDefs env l.ini.expandEnv l.ini.core ((settingsOf ls).map (fun e => ⟨e.1, e.2, nd⟩)) = .error e
    | .ok l' =>
      applyDefs env l.ini.expandEnv l.ini.core ((settingsOf ls).map (fun e => ⟨e.1, e.2, nd⟩)) = .ok l'.ini.core ∧
      l'.fileincludes = l.fileincludes ++ includesOf ls ∧
      l'.filedefaults = l.filedefaults ++ defaultsOf ls ∧
      l'.ini.expandEnv = l.ini.expandEnv ∧ l'.ini.originalFilename = l.ini.originalFilename ∧
      l'.ini.includes = l.ini.includes ∧ l'.ini.defaults = l.ini.defaults := by
  induction lines generalizing l with
  | nil => simp [readLines, settingsOf, includesOf, defaultsOf, applyDefs]
  | cons line lines ih =>
    simp only [readLines, readLine_kind, List.map_cons]
    cases hk : lineKind line with
    | stop => simp [settingsOf, includesOf, defaultsOf, applyDefs]
    | comment t =>
      have := ih { l with comments := l.comments ++ [t] }
      simpa [settingsOf, includesOf, defaultsOf, applyDefs] using this
    | incl f =>
      have := ih { l with fileincludes := l.fileincludes ++ [f], comments := [] }
      simpa [settingsOf, includesOf, defaultsOf, applyDefs] using this
    | dflt f =>
      have := ih { l with filedefaults := l.filedefaults ++ [f], comments := [] }
      simpa [settingsOf, includesOf, defaultsOf, applyDefs] using this
    | blank =>
      have := ih { l with comments := [] }
      simpa [settingsOf, includesOf, defaultsOf, applyDefs] using this
    | setting k r =>
      have hs : settingsOf (List.takeWhile (fun x => decide (x ≠ Line.stop)) (Line.setting k r :: lines.map lineKind)) =
          (k, r) :: settingsOf (List.takeWhile (fun x => decide (x ≠ Line.stop)) (lines.map lineKind)) := by
        simp [settingsOf]
      have hi : includesOf (List.takeWhile (fun x => decide (x ≠ Line.stop)) (Line.setting k r :: lines.map lineKind)) =
          includesOf (List.takeWhile (fun x => decide (x ≠ Line.stop)) (lines.map lineKind)) := by
        simp [includesOf]
      have hd : defaultsOf (List.takeWhile (fun x => decide (x ≠ Line.stop)) (Line.setting k r :: lines.map lineKind)) =
          defaultsOf (List.takeWhile (fun x => decide (x ≠ Line.stop)) (lines.map lineKind)) := by
        simp [defaultsOf]
      rw [hs, hi, hd]
      simp only [List.map_cons, applyDefs, applyDef]
      by_cases hh : l.ini.params.has k = true
      · have hh' : l.ini.core.params.has k = true := hh
        simp only [hh, hh', if_true]
        cases nd with
        | true => exact ih l
        | false => simp
      · have hh' : ¬ l.ini.core.params.has k = true := hh
        simp only [hh, hh']
        cases hv : readValue env l.ini.expandEnv r with
        | error e => simp
        | ok v =>
          have := ih { l with
            ini := { l.ini with
              params := l.ini.params.set k (.str v)
              readOrder := l.ini.readOrder ++ [k]
              comments := if l.comments.length ≠ 0 then l.ini.comments.set k l.comments
                          else l.ini.comments }
            comments := [] }
          exact this

/-- the list version of the induction step for nested files -/
theorem readFiles_spec (env : Str → Option Str) (rd : Ini → Str → Bool → Except Err Ini)
    (df : Str → Bool → Option (List Def)) (file : Str) (nd : Bool)
    (hsome : ∀ ini g ds, df g nd = some ds →
      match rd ini g nd with
      | .error e => applyDefs env ini.expandEnv ini.core ds = .error e
      | .ok i' => applyDefs env ini.expandEnv ini.core ds = .ok i'.core ∧ i'.expandEnv = ini.expandEnv)
    (hnone : ∀ ini g, df g nd = none → ∃ e, rd ini g nd = .error e)
    (ini : Ini) (fl : List Str) :
    match fl.mapM (fun g => df (resolve file g) nd) with
    | none => ∃ e, readFiles rd file nd ini fl = .error e
    | some dss => match readFiles rd file nd ini fl with
      | .error e => applyDefs env ini.expandEnv ini.core dss.flatten = .error e
      | .ok i' => applyDefs env ini.expandEnv ini.core dss.flatten = .ok i'.core ∧ i'.expandEnv = ini.expandEnv := by
  induction fl generalizing ini with
  | nil => simp [readFiles, applyDefs]
  | cons f fl ih =>
    simp only [List.mapM_cons]
    cases hdf : df (resolve file f) nd with
    | none =>
      obtain ⟨e, he⟩ := hnone ini (resolve file f) hdf
      exact ⟨e, by simp [readFiles, he]⟩
    | some ds =>
      have h1 := hsome ini (resolve file f) ds hdf
      cases hr : rd ini (resolve file f) nd with
      | error e =>
        rw [hr] at h1
        cases hm : fl.mapM (fun g => df (resolve file g) nd) with
        | none => exact ⟨e, by simp [readFiles, hr]⟩
        | some dss =>
          simp only [bind, Option.bind, pure, readFiles, hr, List.flatten_cons, applyDefs_append]
          rw [h1]
      | ok i' =>
        rw [hr] at h1
        have h2 := ih i'
        cases hm : fl.mapM (fun g => df (resolve file g) nd) with
        | none =>
          rw [hm] at h2
          obtain ⟨e, he⟩ := h2
          exact ⟨e, by simp [readFiles, hr, he]⟩
        | some dss =>
          rw [hm] at h2
          simp only [bind, Option.bind, pure, readFiles, hr, List.flatten_cons, applyDefs_append]
          rw [h1.1]
          simp only
          rw [h1.2] at h2
          exact h2

theorem readFile_spec (fs env : Str → Option Str) (n : Nat) :
    ∀ (nd : Bool) (ini : Ini) (f : Str),
    match definitions fs n f nd with
    | none => ∃ e, readFile fs env n ini f false nd = .error e
    | some ds => match readFile fs env n ini f false nd with
      | .error e => applyDefs env ini.expandEnv ini.core ds = .error e
      | .ok i' => applyDefs env ini.expandEnv ini.core ds = .ok i'.core ∧ i'.expandEnv = ini.expandEnv := by
  induction n with
  | zero => intro nd ini f; exact ⟨_, rfl⟩
  | succ n ih =>
    intro nd ini f
    simp only [definitions, readFile]
    cases hf : fs f with
    | none => exact ⟨_, rfl⟩
    | some text =>
      simp only
      have hl := readLines_spec env nd { ini := { ini with originalFilename := some f } } (fileIter text)
      simp only at hl
      have hsome : ∀ (nd : Bool) (ini : Ini) (g : Str) (ds : List Def), definitions fs n g nd = some ds →
          match readFile fs env n ini g false nd with
          | .error e => applyDefs env ini.expandEnv ini.core ds = .error e
          | .ok i' => applyDefs env ini.expandEnv ini.core ds = .ok i'.core ∧ i'.expandEnv = ini.expandEnv := by
        intro nd ini g ds h
        have := ih nd ini g
        rw [h] at this
        exact this
      have hnone : ∀ (nd : Bool) (ini : Ini) (g : Str), definitions fs n g nd = none →
          ∃ e, readFile fs env n ini g false nd = .error e := by
        intro nd ini g h
        have := ih nd ini g
        rw [h] at this
        exact this
      have hb : (((fileIter text).map lineKind).takeWhile (· ≠ .stop)) = body text := rfl
      rw [hb] at hl
      cases hr : readLines env nd { ini := { ini with originalFilename := some f } } (fileIter text) with
      | error e =>
        rw [hr] at hl
        have hl : applyDefs env ini.expandEnv ini.core
          ((settingsOf (body text)).map (fun e => ⟨e.1, e.2, nd⟩)) = .error e := hl
        cases hi : (includesOf (body text)).mapM (fun g => definitions fs n (resolve f g) nd) with
        | none => exact ⟨e, rfl⟩
        | some is =>
          cases hd : (defaultsOf (body text)).mapM (fun g => definitions fs n (resolve f g) true) with
          | none => exact ⟨e, rfl⟩
          | some ds =>
            simp only [List.append_assoc, applyDefs_append]
            rw [hl]
      | ok l =>
        rw [hr] at hl
        obtain ⟨hl1, hl2, hl3, hl4, hl5, _, _⟩ := hl
        simp only [List.nil_append] at hl2 hl3
        have hl1 : applyDefs env ini.expandEnv ini.core
          ((settingsOf (body text)).map (fun e => ⟨e.1, e.2, nd⟩)) = .ok l.ini.core := hl1
        have hl4 : l.ini.expandEnv = ini.expandEnv := hl4
        have h1 := readFiles_spec env (fun i f nd => readFile fs env n i f false nd)
          (fun g nd => definitions fs n g nd) f nd (hsome nd) (hnone nd) l.ini l.fileincludes
        rw [← hl2, ← hl3]
        simp only [Bool.false_eq_true, if_false]
        cases hi : l.fileincludes.mapM (fun g => definitions fs n (resolve f g) nd) with
        | none =>
          rw [hi] at h1
          obtain ⟨e, he⟩ := h1
          exact ⟨e, by rw [he]⟩
        | some is =>
          rw [hi] at h1
          cases hrf : readFiles (fun i f nd => readFile fs env n i f false nd) f nd l.ini l.fileincludes with
          | error e =>
            rw [hrf] at h1
            cases hd : l.filedefaults.mapM (fun g => definitions fs n (resolve f g) true) with
            | none => exact ⟨e, by simp⟩
            | some ds =>
              simp only [List.append_assoc, applyDefs_append]
              rw [hl1]
              simp only
              rw [← hl4, h1]
          | ok i1 =>
            rw [hrf] at h1
            have h2 := readFiles_spec env (fun i f nd => readFile fs env n i f false nd)
              (fun g nd => definitions fs n g nd) f true (hsome true) (hnone true) i1 l.filedefaults
            cases hd : l.filedefaults.mapM (fun g => definitions fs n (resolve f g) true) with
            | none =>
              rw [hd] at h2
              obtain ⟨e, he⟩ := h2
              exact ⟨e, by simp [he]⟩
            | some ds =>
              rw [hd] at h2
              simp only [List.append_assoc, applyDefs_append]
              rw [hl1]
              simp only
              rw [← hl4, h1.1]
              simp only
              rw [h1.2] at h2
              exact h2

/-! ### consequences of `applyDefs` -/

theorem readValue_noexpand (env : Str → Option Str) (raw : Str) : readValue env false raw = .ok raw := rfl

theorem applyDefs_get (env : Str → Option Str) (ex : Bool) (ds : List Def) :
    ∀ (c c' : Core), applyDefs env ex c ds = .ok c' → ∀ k,
      (∀ v, c.params.get? k = some v → c'.params.get? k = some v) ∧
      (c.params.get? k = none →
        (firstDef ds k = none → c'.params.get? k = none) ∧
        (∀ d, firstDef ds k = some d → ∃ v, readValue env ex d.raw = .ok v ∧ c'.params.get? k = some (.str v))) := by
  induction ds with
  | nil =>
    intro c c' h k
    simp only [applyDefs, Except.ok.injEq] at h
    subst h
    simp [firstDef]
  | cons d ds ih =>
    intro c c' h k
    simp only [applyDefs] at h
    cases ha : applyDef env ex c d with
    | error e => rw [ha] at h; simp at h
    | ok c1 =>
      rw [ha] at h
      simp only at h
      have h1 := ih c1 c' h k
      unfold applyDef at ha
      by_cases hh : c.params.has d.key = true
      · simp only [hh, if_true] at ha
        split at ha
        · simp only [Except.ok.injEq] at ha
          subst ha
          refine ⟨h1.1, fun hn => ?_⟩
          have hne : (d.key == k) = false := by
            rw [Bool.eq_false_iff]; intro e
            have e : d.key = k := by simpa using e
            subst e
            rw [Dict.has_iff] at hh
            exact (Dict.get?_eq_none.mp hn) hh
          have : firstDef (d :: ds) k = firstDef ds k := by
            simp [firstDef, hne]
          rw [this]
          exact h1.2 hn
        · simp at ha
      · simp only [hh] at ha
        have hk0 : c.params.get? d.key = none := by
          rw [Dict.get?_eq_none]; intro hm; exact hh (Dict.has_iff.mpr hm)
        cases hv : readValue env ex d.raw with
        | error e => rw [hv] at ha; simp at ha
        | ok v =>
          rw [hv] at ha
          simp only [if_false, Bool.false_eq_true, Except.ok.injEq] at ha
          subst ha
          simp only [Dict.get?_set] at h1
          by_cases hk : k = d.key
          · subst hk
            simp only [if_true] at h1
            refine ⟨fun v hv' => by rw [hk0] at hv'; simp at hv', fun _ => ?_⟩
            have hf : firstDef (d :: ds) d.key = some d := by simp [firstDef]
            rw [hf]
            refine ⟨by simp, ?_⟩
            intro d' hd'
            simp only [Option.some.injEq] at hd'
            subst hd'
            exact ⟨v, hv, h1.1 _ rfl⟩
          · simp only [if_neg hk] at h1
            refine ⟨h1.1, fun hn => ?_⟩
            have hne : (d.key == k) = false := by
              rw [Bool.eq_false_iff]; intro e; exact hk (by simpa using Eq.symm (by simpa using e : d.key = k))
            have : firstDef (d :: ds) k = firstDef ds k := by
              simp [firstDef, hne]
            rw [this]
            exact h1.2 hn

theorem applyDefs_noclash (env : Str → Option Str) (ex : Bool) (ds : List Def) :
    ∀ (c c' : Core) (seen : List Str), (∀ k, k ∈ seen ↔ k ∈ c.params.keys) →
      applyDefs env ex c ds = .ok c' → NoClash ds seen := by
  induction ds with
  | nil => intros; trivial
  | cons d ds ih =>
    intro c c' seen hseen h
    simp only [applyDefs] at h
    cases ha : applyDef env ex c d with
    | error e => rw [ha] at h; simp at h
    | ok c1 =>
      rw [ha] at h
      simp only at h
      unfold applyDef at ha
      by_cases hh : c.params.has d.key = true
      · have hm := (Dict.has_iff.mp hh)
        simp only [hh, if_true] at ha
        split at ha
        · rename_i hd
          simp only [Except.ok.injEq] at ha
          subst ha
          refine ⟨fun hf => by rw [hf] at hd; simp at hd, ih c c' _ ?_ h⟩
          intro k
          simp only [List.mem_cons, hseen]
          constructor
          · rintro (rfl | h)
            · exact hm
            · exact h
          · exact Or.inr
        · simp at ha
      · simp only [hh] at ha
        have hm : d.key ∉ c.params.keys := fun h => hh (Dict.has_iff.mpr h)
        refine ⟨fun _ => fun hs => hm ((hseen _).mp hs), ?_⟩
        cases hv : readValue env ex d.raw with
        | error e => rw [hv] at ha; simp at ha
        | ok v =>
          rw [hv] at ha
          simp only [if_false, Bool.false_eq_true, Except.ok.injEq] at ha
          subst ha
          refine ih _ c' _ ?_ h
          intro k
          rw [Dict.mem_keys_set, List.mem_cons, hseen]

theorem applyDefs_clash (env : Str → Option Str) (ex : Bool) (ds : List Def) 
    (hv : ∀ d ∈ ds, ∃ v, readValue env ex d.raw = .ok v) :
    ∀ (c : Core) (seen : List Str), (∀ k, k ∈ seen ↔ k ∈ c.params.keys) →
      (NoClash ds seen → ∃ c', applyDefs env ex c ds = .ok c') ∧
      (¬ NoClash ds seen → ∃ k, applyDefs env ex c ds = .error (.dup k)) := by
  induction ds with
  | nil => intro c seen _; exact ⟨fun _ => ⟨c, rfl⟩, fun h => absurd trivial h⟩
  | cons d ds ih =>
    intro c seen hseen
    have ih := ih (fun d hd => hv d (List.mem_cons_of_mem _ hd))
    by_cases hh : c.params.has d.key = true
    · have hm := (Dict.has_iff.mp hh)
      have hseen' : ∀ k, k ∈ d.key :: seen ↔ k ∈ c.params.keys := by
        intro k
        simp only [List.mem_cons, hseen]
        constructor
        · rintro (rfl | h)
          · exact hm
          · exact h
        · exact Or.inr
      by_cases hd : d.isDefault = true
      · have ha : applyDef env ex c d = .ok c := by simp [applyDef, hh, hd]
        obtain ⟨h1, h2⟩ := ih c _ hseen'
        refine ⟨fun h => ?_, fun h => ?_⟩
        · obtain ⟨c', hc'⟩ := h1 h.2
          exact ⟨c', by simp [applyDefs, ha, hc']⟩
        · obtain ⟨k, hk⟩ := h2 (fun hn => h ⟨fun hf => by rw [hf] at hd; simp at hd, hn⟩)
          exact ⟨k, by simp [applyDefs, ha, hk]⟩
      · have ha : applyDef env ex c d = .error (.dup d.key) := by simp [applyDef, hh, hd]
        refine ⟨fun h => ?_, fun _ => ⟨d.key, by simp [applyDefs, ha]⟩⟩
        exact absurd ((hseen _).mpr hm) (h.1 (by simpa using hd))
    · have hm : d.key ∉ c.params.keys := fun h => hh (Dict.has_iff.mpr h)
      obtain ⟨v, hval⟩ := hv d (by simp)
      have ha : applyDef env ex c d = .ok ⟨c.params.set d.key (.str v), c.readOrder ++ [d.key]⟩ := by
        simp [applyDef, hh, hval]
      obtain ⟨h1, h2⟩ := ih ⟨c.params.set d.key (.str v), c.readOrder ++ [d.key]⟩ (d.key :: seen) (by
        intro k; rw [Dict.mem_keys_set, List.mem_cons, hseen])
      refine ⟨fun h => ?_, fun h => ?_⟩
      · obtain ⟨c', hc'⟩ := h1 h.2
        exact ⟨c', by simp [applyDefs, ha, hc']⟩
      · obtain ⟨k, hk⟩ := h2 (fun hn => h ⟨fun _ hs => hm ((hseen _).mp hs), hn⟩)
        exact ⟨k, by simp [applyDefs, ha, hk]⟩

/-- invariant of reading: the read order is the list of keys -/
theorem applyDefs_order (env : Str → Option Str) (ex : Bool) (ds : List Def) :
    ∀ (c c' : Core), applyDefs env ex c ds = .ok c' → c.params.WF → c.readOrder = c.params.keys →
      c'.params.WF ∧ c'.readOrder = c'.params.keys := by
  induction ds with
  | nil => intro c c' h; simp only [applyDefs, Except.ok.injEq] at h; subst h; exact fun a b => ⟨a, b⟩
  | cons d ds ih =>
    intro c c' h hw ho
    simp only [applyDefs] at h
    cases ha : applyDef env ex c d with
    | error e => rw [ha] at h; simp at h
    | ok c1 =>
      rw [ha] at h
      simp only at h
      unfold applyDef at ha
      by_cases hh : c.params.has d.key = true
      · simp only [hh, if_true] at ha
        split at ha
        · simp only [Except.ok.injEq] at ha
          subst ha
          exact ih _ _ h hw ho
        · simp at ha
      · simp only [hh] at ha
        have hm : d.key ∉ c.params.keys := fun h => hh (Dict.has_iff.mpr h)
        cases hv : readValue env ex d.raw with
        | error e => rw [hv] at ha; simp at ha
        | ok v =>
          rw [hv] at ha
          simp only [if_false, Bool.false_eq_true, Except.ok.injEq] at ha
          subst ha
          refine ih _ _ h (Dict.WF_set _ _ hw) ?_
          simp only [Dict.set_of_not_mem _ hm, Dict.keys_append]
          rw [ho]; rfl

end Verif.IniFile
