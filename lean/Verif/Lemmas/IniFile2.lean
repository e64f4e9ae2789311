import Verif.Lemmas.IniFile

/-! Lemmas for saving, comments and key order. -/

namespace Verif.IniFile
open Verif.Py

/-! ### sorting -/

theorem mem_insertStr {x y : Str} {l : List Str} : y ∈ insertStr x l ↔ y = x ∨ y ∈ l := by
  induction l with
  | nil => simp [insertStr]
  | cons z l ih =>
    simp only [insertStr]
    split
    · simp
    · simp only [List.mem_cons, ih]
      constructor
      · rintro (h | h | h) <;> simp [h]
      · rintro (h | h | h) <;> simp [h]

theorem insertStr_perm (x : Str) (l : List Str) : (insertStr x l).Perm (x :: l) := by
  induction l with
  | nil => exact List.Perm.refl _
  | cons z l ih =>
    simp only [insertStr]
    split
    · exact List.Perm.refl _
    · exact (List.Perm.cons z ih).trans (List.Perm.swap x z l)

theorem sortStr_perm (l : List Str) : (sortStr l).Perm l := by
  induction l with
  | nil => exact List.Perm.refl _
  | cons x l ih => exact (insertStr_perm x _).trans (List.Perm.cons x ih)

theorem strLe_total (a b : Str) : strLe a b = true ∨ strLe b a = true := by
  induction a generalizing b with
  | nil => left; cases b <;> rfl
  | cons x a ih =>
    cases b with
    | nil => right; rfl
    | cons y b =>
      simp only [strLe]
      by_cases h1 : x.toNat < y.toNat
      · left; simp [h1]
      · by_cases h2 : y.toNat < x.toNat
        · right; simp [h2]
        · simp only [h1, h2, if_false]; exact ih b

theorem strLe_trans {a b c : Str} (h1 : strLe a b = true) (h2 : strLe b c = true) : strLe a c = true := by
  induction a generalizing b c with
  | nil => cases c <;> rfl
  | cons x a ih =>
    cases b with
    | nil => simp [strLe] at h1
    | cons y b =>
      cases c with
      | nil => simp [strLe] at h2
      | cons z c =>
        simp only [strLe] at *
        split at h1
        · split at h2
          · rw [if_pos (by omega)]
          · split at h2
            · simp at h2
            · rw [if_pos (by omega)]
        · split at h1
          · simp at h1
          · split at h2
            · rw [if_pos (by omega)]
            · split at h2
              · simp at h2
              · rw [if_neg (by omega), if_neg (by omega)]
                exact ih h1 h2

theorem insertStr_sorted {x : Str} {l : List Str} (h : l.Pairwise (fun a b => strLe a b = true)) :
    (insertStr x l).Pairwise (fun a b => strLe a b = true) := by
  induction l with
  | nil => simp [insertStr]
  | cons y l ih =>
    simp only [insertStr]
    rw [List.pairwise_cons] at h
    split
    · rename_i hxy
      rw [List.pairwise_cons]
      refine ⟨?_, List.pairwise_cons.mpr h⟩
      intro z hz
      rcases List.mem_cons.mp hz with rfl | hz
      · exact hxy
      · exact strLe_trans hxy (h.1 z hz)
    · rename_i hxy
      rw [List.pairwise_cons]
      refine ⟨?_, ih h.2⟩
      intro z hz
      rcases mem_insertStr.mp hz with rfl | hz
      · exact (strLe_total z y).resolve_left hxy
      · exact h.1 z hz

theorem sortStr_sorted (l : List Str) : (sortStr l).Pairwise (fun a b => strLe a b = true) := by
  induction l with
  | nil => simp [sortStr]
  | cons x l ih => exact insertStr_sorted ih

/-! ### write order -/

theorem orderedKeys_spec (ro keys : List Str) (hn : keys.Nodup) :
    let r := orderedKeys ro keys
    (r.1 ++ r.2).Perm keys ∧ r.1.Sublist ro ∧ (∀ k, k ∈ r.1 ↔ k ∈ ro ∧ k ∈ keys) ∧ r.2.Sublist keys ∧
    (∀ k, k ∈ r.2 ↔ k ∈ keys ∧ k ∉ ro) := by
  induction ro generalizing keys with
  | nil => simp [orderedKeys]
  | cons k ro ih =>
    simp only [orderedKeys]
    split
    · rename_i hk
      obtain ⟨h1, h2, h3, h4, h5⟩ := ih (keys.erase k) (hn.erase k)
      refine ⟨?_, ?_, ?_, ?_, ?_⟩
      · exact (List.Perm.cons k h1).trans (List.perm_cons_erase hk).symm
      · exact h2.cons_cons k
      · intro k'
        simp only [List.mem_cons, h3, hn.mem_erase_iff]
        constructor
        · rintro (rfl | ⟨h, _, h'⟩)
          · exact ⟨Or.inl rfl, hk⟩
          · exact ⟨Or.inr h, h'⟩
        · rintro ⟨h | h, h'⟩
          · exact Or.inl h
          · by_cases e : k' = k
            · exact Or.inl e
            · exact Or.inr ⟨h, e, h'⟩
      · exact h4.trans List.erase_sublist
      · intro k'
        simp only [h5, hn.mem_erase_iff, List.mem_cons, not_or]
        constructor
        · rintro ⟨⟨a, b⟩, c⟩; exact ⟨b, a, c⟩
        · rintro ⟨b, a, c⟩; exact ⟨⟨a, b⟩, c⟩
    · rename_i hk
      obtain ⟨h1, h2, h3, h4, h5⟩ := ih keys hn
      refine ⟨h1, h2.cons k, ?_, h4, ?_⟩
      · intro k'
        rw [h3, List.mem_cons]
        constructor
        · rintro ⟨a, b⟩; exact ⟨Or.inr a, b⟩
        · rintro ⟨rfl | a, b⟩
          · exact absurd b hk
          · exact ⟨a, b⟩
      · intro k'
        rw [h5, List.mem_cons, not_or]
        constructor
        · rintro ⟨a, b⟩; exact ⟨a, fun e => hk (e ▸ a), b⟩
        · rintro ⟨a, _, b⟩; exact ⟨a, b⟩

theorem writeOrder_perm (ini : Ini) (hw : ini.params.WF) : (writeOrder ini).Perm ini.params.keys := by
  have hn : (sortStr ini.params.keys).Nodup := (sortStr_perm _).nodup_iff.mpr hw
  exact (orderedKeys_spec ini.readOrder _ hn).1.trans (sortStr_perm _)

/-! ### lines -/

theorem lineKind_strip (l : Str) : lineKind (strip l) = lineKind l := by
  unfold lineKind; simp only [strip_strip]

/-- names that can be written as the left side of a setting -/
def KeyOK (k : Str) : Prop :=
  '=' ∉ k ∧ Trim k ∧ OneLine k ∧ k.head? ≠ some '#' ∧ ¬ c!"INCLUDE(" <+: k ∧ ¬ c!"DEFAULT(" <+: k
/-- values that can be written as the right side of a setting -/
def ValOK (v : Str) : Prop := Trim v ∧ OneLine v

theorem trim_setting {k v : Str} (hk : Trim k) (hv : Trim v) : Trim (k ++ '=' :: v) := by
  constructor
  · intro c hc
    cases k with
    | nil => simp at hc; subst hc; decide
    | cons a k => exact hk.1 c (by simpa using hc)
  · intro c hc
    rw [List.getLast?_append] at hc
    cases v with
    | nil => simp at hc; subst hc; decide
    | cons a v =>
      apply hv.2 c
      simpa using hc

theorem prefix_setting {p k v : Str} (h : '=' ∉ p) : p <+: k ++ '=' :: v ↔ p <+: k := by
  rw [← startsWith_iff, ← startsWith_iff, startsWith_append_sep h]

theorem lineKind_setting {k v : Str} (hk : KeyOK k) (hv : ValOK v) :
    lineKind (k ++ '=' :: v) = .setting k v := by
  obtain ⟨h1, h2, h3, h4, h5, h6⟩ := hk
  unfold lineKind
  simp only [strip_eq_self (trim_setting h2 hv.1)]
  rw [if_neg, if_neg, if_neg, if_neg, if_pos]
  · have ht : List.takeWhile (fun x => decide (x ≠ '=')) (k ++ '=' :: v) = k := by
      rw [List.takeWhile_append_of_pos]
      · simp
      · intro c hc; simpa using fun e : c = '=' => h1 (e ▸ hc)
    have hd : List.dropWhile (fun x => decide (x ≠ '=')) (k ++ '=' :: v) = '=' :: v := by
      rw [List.dropWhile_append_of_pos]
      · simp
      · intro c hc; simpa using fun e : c = '=' => h1 (e ▸ hc)
    rw [ht, hd, List.tail_cons, strip_eq_self h2, strip_eq_self hv.1]
  · simp
  · rw [prefix_setting (by decide)]; exact h6
  · rw [prefix_setting (by decide)]; exact h5
  · cases k with
    | nil => simp
    | cons a k => simpa using h4
  · intro e
    have : '=' ∈ c!"END" := by rw [← e]; simp
    revert this; decide

theorem bracket_lemma (p f : Str) (hp1 : '(' ∉ p) :
    bracketArg (p ++ '(' :: f ++ [')']) = f := by
  unfold bracketArg
  have h1 : find '(' (p ++ '(' :: f ++ [')']) = some p.length := by
    rw [List.append_assoc]
    exact find_append (b := f ++ [')']) hp1
  have h2 : find ')' (p ++ '(' :: f ++ [')']).reverse = some 0 := by
    simp [find, List.findIdx?_cons]
  rw [h1, h2]
  simp only
  have e : (p ++ '(' :: f ++ [')']).length - 1 - 0 = (p ++ '(' :: f).length := by simp
  rw [e, List.take_left]
  rw [← List.drop_drop]
  simp

theorem trim_bracket {c : Char} {p : Str} (f : Str) (hc : isWs c = false) : Trim (c :: p ++ f ++ [')']) := by
  constructor
  · intro d hd; simp at hd; subst hd; exact hc
  · intro d hd
    rw [List.getLast?_append] at hd
    simp at hd
    subst hd; decide

theorem lineKind_include (f : Str) : lineKind (c!"INCLUDE(" ++ f ++ c!")") = .incl f := by
  unfold lineKind
  have ht : strip (c!"INCLUDE(" ++ f ++ c!")") = c!"INCLUDE(" ++ f ++ c!")" :=
    strip_eq_self (trim_bracket (c := 'I') (p := c!"NCLUDE(") f (by decide))
  simp only [ht]
  have hb : between (c!"INCLUDE(" ++ f ++ c!")") = f := by
    rw [← bracketArg_prefix (p := c!"INCLUDE") (by decide) (by decide) ⟨f ++ c!")", by simp⟩]
    have := bracket_lemma c!"INCLUDE" f (by decide)
    have e : c!"INCLUDE" ++ '(' :: f ++ [')'] = c!"INCLUDE(" ++ f ++ c!")" := by simp
    rw [e] at this; exact this
  rw [if_neg, if_neg, if_pos, hb]
  · exact ⟨f ++ c!")", by simp⟩
  · simp
  · simp

theorem lineKind_default (f : Str) : lineKind (c!"DEFAULT(" ++ f ++ c!")") = .dflt f := by
  unfold lineKind
  have ht : strip (c!"DEFAULT(" ++ f ++ c!")") = c!"DEFAULT(" ++ f ++ c!")" :=
    strip_eq_self (trim_bracket (c := 'D') (p := c!"EFAULT(") f (by decide))
  simp only [ht]
  have hb : between (c!"DEFAULT(" ++ f ++ c!")") = f := by
    rw [← bracketArg_prefix (p := c!"DEFAULT") (by decide) (by decide) ⟨f ++ c!")", by simp⟩]
    have := bracket_lemma c!"DEFAULT" f (by decide)
    have e : c!"DEFAULT" ++ '(' :: f ++ [')'] = c!"DEFAULT(" ++ f ++ c!")" := by simp
    rw [e] at this; exact this
  rw [if_neg, if_neg, if_neg, if_pos, hb]
  · exact ⟨f ++ c!")", by simp⟩
  · simp
  · simp
  · simp

/-- kinds of the lines of a text written by joining lines -/
theorem body_join {ls : List Str} (h1 : ∀ l ∈ ls, OneLine l) (h2 : ∀ l ∈ ls, l ≠ [])
    (h3 : ∀ l ∈ ls, lineKind l ≠ .stop) : body (join c!"\n" ls) = ls.map lineKind := by
  unfold body
  have e : (fileIter (join c!"\n" ls)).map lineKind = ls.map lineKind := by
    have : lineKind = lineKind ∘ strip := by funext l; simp [lineKind_strip]
    rw [this, ← List.map_map, strip_fileIter_join h1 h2, List.map_map]
  have tw : ∀ l : List Line, (∀ k ∈ l, k ≠ .stop) → l.takeWhile (· ≠ .stop) = l := by
    intro l
    induction l with
    | nil => intro _; rfl
    | cons a l ih =>
      intro h
      rw [List.takeWhile_cons, if_pos (by simpa using h a (by simp)), ih (fun k hk => h k (by simp [hk]))]
  rw [e]
  apply tw
  intro k hk
  obtain ⟨l, hl, rfl⟩ := List.mem_map.mp hk
  simpa using h3 l hl

theorem noClash_of_nodup (ds : List Def) (seen : List Str) (h : (ds.map (·.key)).Nodup)
    (hd : ∀ d ∈ ds, d.key ∉ seen) : NoClash ds seen := by
  induction ds generalizing seen with
  | nil => trivial
  | cons d ds ih =>
    simp only [List.map_cons, List.nodup_cons] at h
    refine ⟨fun _ => hd d (by simp), ih _ h.2 ?_⟩
    intro d' hd'
    rw [List.mem_cons, not_or]
    exact ⟨fun e => h.1 (e ▸ List.mem_map.mpr ⟨d', hd', rfl⟩), hd d' (List.mem_cons_of_mem _ hd')⟩

/-! ### comments -/

theorem readLines_append (env : Str → Option Str) (nd : Bool) (l : Loop) (a b : List Str)
    (h : ∀ x ∈ a, lineKind x ≠ .stop) :
    readLines env nd l (a ++ b) = match readLines env nd l a with
      | .error e => .error e
      | .ok l' => readLines env nd l' b := by
  induction a generalizing l with
  | nil => rfl
  | cons x a ih =>
    simp only [List.cons_append, readLines]
    cases hr : readLine env nd l x with
    | error e => rfl
    | ok st =>
      cases st with
      | stop l' =>
        exfalso
        rw [readLine_kind] at hr
        have := h x (by simp)
        cases hk : lineKind x with
        | stop => exact this hk
        | setting k r =>
          rw [hk] at hr
          simp only at hr
          split at hr
          · split at hr <;> simp at hr
          · split at hr <;> simp at hr
        | _ => rw [hk] at hr; simp at hr
      | go l' => exact ih l' (fun y hy => h y (List.mem_cons_of_mem _ hy))

/-- stored comments only belong to stored names -/
def ComInv (i : Ini) : Prop := ∀ k, k ∈ i.comments.keys → k ∈ i.params.keys

theorem readLine_pres (env : Str → Option Str) (nd : Bool) (l l' : Loop) (x : Str)
    (h : readLine env nd l x = .ok (.stop l') ∨ readLine env nd l x = .ok (.go l')) :
    (ComInv l.ini → ComInv l'.ini) ∧
    ∀ k, k ∈ l.ini.params.keys → k ∈ l'.ini.params.keys ∧ l'.ini.comments.get? k = l.ini.comments.get? k := by
  rw [readLine_kind] at h
  cases hk : lineKind x with
  | setting key raw =>
    rw [hk] at h
    simp only at h
    split at h
    · split at h
      · rcases h with h | h
        · simp at h
        · cases h; exact ⟨id, fun k hk => ⟨hk, rfl⟩⟩
      · rcases h with h | h <;> simp at h
    · rename_i hh
      have hm : key ∉ l.ini.params.keys := fun hm => hh (Dict.has_iff.mpr hm)
      split at h
      · rcases h with h | h <;> simp at h
      · rcases h with h | h
        · simp at h
        · cases h
          constructor
          · intro hi k hk
            simp only at hk ⊢
            rw [Dict.mem_keys_set]
            split at hk
            · rw [Dict.mem_keys_set] at hk
              exact hk.imp id (hi k)
            · exact Or.inr (hi k hk)
          · intro k hk
            simp only
            refine ⟨Dict.mem_keys_set.mpr (Or.inr hk), ?_⟩
            split
            · exact Dict.get?_set_of_ne _ _ (fun e => hm (e ▸ hk))
            · rfl
  | _ =>
    rw [hk] at h
    rcases h with h | h
    all_goals first
      | (simp at h; done)
      | (cases h; exact ⟨id, fun k hk => ⟨hk, rfl⟩⟩)

theorem readLines_pres (env : Str → Option Str) (nd : Bool) (lines : List Str) :
    ∀ (l l' : Loop), readLines env nd l lines = .ok l' →
    (ComInv l.ini → ComInv l'.ini) ∧
    ∀ k, k ∈ l.ini.params.keys → k ∈ l'.ini.params.keys ∧ l'.ini.comments.get? k = l.ini.comments.get? k := by
  induction lines with
  | nil => intro l l' h; simp only [readLines, Except.ok.injEq] at h; subst h; exact ⟨id, fun k hk => ⟨hk, rfl⟩⟩
  | cons x lines ih =>
    intro l l' h
    simp only [readLines] at h
    cases hr : readLine env nd l x with
    | error e => rw [hr] at h; simp at h
    | ok st =>
      rw [hr] at h
      cases st with
      | stop l1 =>
        simp only [Except.ok.injEq] at h
        subst h
        exact readLine_pres env nd l l1 x (Or.inl hr)
      | go l1 =>
        have h1 := readLine_pres env nd l l1 x (Or.inr hr)
        have h2 := ih l1 l' h
        refine ⟨fun hi => h2.1 (h1.1 hi), fun k hk => ?_⟩
        have a := h1.2 k hk
        have b := h2.2 k a.1
        exact ⟨b.1, b.2.trans a.2⟩

theorem readFiles_pres (rd : Ini → Str → Bool → Except Err Ini) (file : Str) (nd : Bool)
    (hrd : ∀ i g i', rd i g nd = .ok i' →
      (ComInv i → ComInv i') ∧
      ∀ k, k ∈ i.params.keys → k ∈ i'.params.keys ∧ i'.comments.get? k = i.comments.get? k) (fl : List Str) :
    ∀ (i i' : Ini), readFiles rd file nd i fl = .ok i' →
    (ComInv i → ComInv i') ∧
    ∀ k, k ∈ i.params.keys → k ∈ i'.params.keys ∧ i'.comments.get? k = i.comments.get? k := by
  induction fl with
  | nil => intro l l' h; simp only [readFiles, Except.ok.injEq] at h; subst h; exact ⟨id, fun k hk => ⟨hk, rfl⟩⟩
  | cons f fl ih =>
    intro i i' h
    simp only [readFiles] at h
    cases hr : rd i (resolve file f) nd with
    | error e => rw [hr] at h; simp at h
    | ok i1 =>
      rw [hr] at h
      have h1 := hrd i _ i1 hr
      have h2 := ih i1 i' h
      refine ⟨fun hi => h2.1 (h1.1 hi), fun k hk => ?_⟩
      have a := h1.2 k hk
      have b := h2.2 k a.1
      exact ⟨b.1, b.2.trans a.2⟩

theorem readFile_pres (fs env : Str → Option Str) (n : Nat) :
    ∀ (nd keep : Bool) (i i' : Ini) (f : Str), readFile fs env n i f keep nd = .ok i' →
    (ComInv i → ComInv i') ∧
    ∀ k, k ∈ i.params.keys → k ∈ i'.params.keys ∧ i'.comments.get? k = i.comments.get? k := by
  induction n with
  | zero => intro nd keep i i' f h; simp [readFile] at h
  | succ n ih =>
    intro nd keep i i' f h
    simp only [readFile] at h
    cases hf : fs f with
    | none => rw [hf] at h; simp at h
    | some text =>
      rw [hf] at h
      simp only at h
      cases hr : readLines env nd { ini := { i with originalFilename := some f } } (fileIter text) with
      | error e => rw [hr] at h; simp at h
      | ok l =>
        rw [hr] at h
        simp only at h
        have h1 := readLines_pres env nd _ _ _ hr
        have h1a : ComInv i → ComInv l.ini := h1.1
        have h1b : ∀ k, k ∈ i.params.keys → k ∈ l.ini.params.keys ∧ l.ini.comments.get? k = i.comments.get? k := h1.2
        cases keep with
        | true =>
          simp only [if_true, Except.ok.injEq] at h
          subst h
          exact ⟨h1a, h1b⟩
        | false =>
          simp only [Bool.false_eq_true, if_false] at h
          cases hrf : readFiles (fun i f nd => readFile fs env n i f false nd) f nd l.ini l.fileincludes with
          | error e => rw [hrf] at h; simp at h
          | ok i1 =>
            rw [hrf] at h
            simp only at h
            have h2 := readFiles_pres _ f nd (fun i g i' h => ih nd false i i' g h) _ _ _ hrf
            have h3 := readFiles_pres _ f true (fun i g i' h => ih true false i i' g h) _ _ _ h
            refine ⟨fun hi => h3.1 (h2.1 (h1a hi)), fun k hk => ?_⟩
            have a := h1b k hk
            have b := h2.2 k a.1
            have c := h3.2 k b.1
            exact ⟨c.1, c.2.trans (b.2.trans a.2)⟩

/-- reading comment lines only collects them -/
theorem readLines_comments (env : Str → Option Str) (nd : Bool) (cs : List Str) (ts : List Str)
    (h : cs.map lineKind = ts.map .comment) : ∀ l : Loop,
    readLines env nd l cs = .ok { l with comments := l.comments ++ ts } := by
  induction cs generalizing ts with
  | nil =>
    intro l
    cases ts with
    | nil => simp [readLines]
    | cons => simp at h
  | cons c cs ih =>
    intro l
    cases ts with
    | nil => simp at h
    | cons t ts =>
      simp only [List.map_cons, List.cons.injEq] at h
      simp only [readLines, readLine_kind, h.1]
      rw [ih ts h.2]
      simp

/-- In strict mode (no skipped duplicates) every non-comment line clears the pending comments. -/
theorem readLines_pending (env : Str → Option Str) (pre : List Str) (hns : ∀ x ∈ pre, lineKind x ≠ .stop)
    (hlast : ∀ x, pre.getLast? = some x → ∀ t, lineKind x ≠ .comment t) :
    ∀ (l l' : Loop), l.comments = [] → readLines env false l pre = .ok l' → l'.comments = [] := by
  rcases List.eq_nil_or_concat pre with rfl | ⟨pre, x, rfl⟩
  · intro l l' hl h; simp only [readLines, Except.ok.injEq] at h; subst h; exact hl
  · rw [List.concat_eq_append] at *
    intro l l' hl h
    rw [readLines_append _ _ _ _ _ (fun y hy => hns y (by simp [hy]))] at h
    cases hr : readLines env false l pre with
    | error e => rw [hr] at h; simp at h
    | ok l1 =>
      rw [hr] at h
      simp only [readLines, readLine_kind] at h
      have h1 := hns x (by simp)
      have h2 := hlast x (by simp)
      cases hk : lineKind x with
      | stop => exact absurd hk h1
      | comment t => exact absurd hk (h2 t)
      | setting k r =>
        rw [hk] at h
        simp only [Bool.false_eq_true, if_false] at h
        split at h
        · simp at h
        · rename_i h3; split at h3
          · simp at h3
          · split at h3 <;> simp at h3
        · rename_i h3
          simp only [Except.ok.injEq] at h
          subst h
          split at h3
          · simp at h3
          · split at h3
            · simp at h3
            · simp only [Except.ok.injEq, Step.go.injEq] at h3
              rw [← h3]
      | _ => rw [hk] at h; simp at h; rw [← h]

end Verif.IniFile
