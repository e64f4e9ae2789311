import Verif.Lemmas.IniFile2

/-!
# C01-C04, C06, C51, C52: reading and saving .ini files
-/

namespace Verif.IniFile
open Verif.Py

/-! ## C02 precedence -/

/-- **C02** After loading a file, the value of every name is that of its first definition in the order: the file
itself, its INCLUDE files, its DEFAULT files (recursively); names without a definition are absent. -/
theorem load_precedence (fs env : Str → Option Str) (limit : Nat) (file : Str) (ex : Bool) (ini : Ini)
    (h : load fs env limit file false ex = .ok ini) :
    ∃ ds, definitions fs limit file false = some ds ∧ ∀ k,
      match firstDef ds k with
      | none => ini.params.get? k = none
      | some d => ∃ v, readValue env ex d.raw = .ok v ∧ ini.params.get? k = some (.str v) := by
  have hs := readFile_spec fs env limit false { expandEnv := ex } file
  unfold load at h
  rw [h] at hs
  cases hd : definitions fs limit file false with
  | none => rw [hd] at hs; obtain ⟨e, he⟩ := hs; simp at he
  | some ds =>
    rw [hd] at hs
    refine ⟨ds, rfl, fun k => ?_⟩
    have hg := (applyDefs_get env ex ds _ _ hs.1 k).2 rfl
    cases hf : firstDef ds k with
    | none => exact hg.1 hf
    | some d => exact hg.2 d hf

/-- **C02 (corollary)** A setting made in the loaded file itself is never changed by any INCLUDE or DEFAULT file: its
value is that of the first line of the file that sets it. -/
theorem load_own_setting_wins (fs env : Str → Option Str) (limit : Nat) (file text : Str) (ex : Bool) (ini : Ini)
    (h : load fs env limit file false ex = .ok ini) (hf : fs file = some text) (k raw : Str)
    (hk : (settingsOf (body text)).find? (fun e => e.1 == k) = some (k, raw)) :
    ∃ v, readValue env ex raw = .ok v ∧ ini.params.get? k = some (.str v) := by
  obtain ⟨ds, hd, hp⟩ := load_precedence fs env limit file ex ini h
  cases limit with
  | zero => simp [definitions] at hd
  | succ n =>
    simp only [definitions, hf] at hd
    split at hd
    · rename_i is dss _ _
      simp only [Option.some.injEq] at hd
      have hfd : firstDef ds k = some ⟨k, raw, false⟩ := by
        rw [← hd]
        unfold firstDef
        rw [List.append_assoc, List.find?_append, List.find?_map]
        have : List.find? ((fun d : Def => d.key == k) ∘ fun e : Str × Str => (⟨e.1, e.2, false⟩ : Def))
            (settingsOf (body text)) = some (k, raw) := hk
        rw [this]; rfl
      have := hp k
      rw [hfd] at this
      exact this
    · simp at hd

/-- file tree used for the non-vacuity examples: the main file includes one file and has two defaults that disagree -/
def demoFS : Str → Option Str := fun f =>
  if f = c!"d/main.ini" then some c!"# top\na = 1\nINCLUDE(inc.ini)\nDEFAULT(d1.ini)\nDEFAULT(sub/d2.ini)\n"
  else if f = c!"d/inc.ini" then some c!"b=2"
  else if f = c!"d/d1.ini" then some c!"a=9\n# about c\nc = 3 \nb=8\n"
  else if f = c!"d/sub/d2.ini" then some c!"c=7\ne=$(HOME)\nEND\nz=1"
  else none

def demoEnv : Str → Option Str := fun n => if n = c!"HOME" then some c!"/h" else none

example : ∃ ini, load demoFS demoEnv 5 c!"d/main.ini" false true = .ok ini ∧
    ini.params = [(c!"a", .str c!"1"), (c!"b", .str c!"2"), (c!"c", .str c!"3"), (c!"e", .str c!"/h")] := by
  refine ⟨_, rfl, ?_⟩
  decide +kernel

/-! ## C03 duplicates -/

/-- **C03a** A load that succeeds had no clash: no non-default setting repeats a name defined before it. -/
theorem load_ok_no_clash (fs env : Str → Option Str) (limit : Nat) (file : Str) (ex : Bool) (ini : Ini)
    (h : load fs env limit file false ex = .ok ini) :
    ∃ ds, definitions fs limit file false = some ds ∧ NoClash ds [] := by
  have hs := readFile_spec fs env limit false { expandEnv := ex } file
  unfold load at h
  rw [h] at hs
  cases hd : definitions fs limit file false with
  | none => rw [hd] at hs; obtain ⟨e, he⟩ := hs; simp at he
  | some ds =>
    rw [hd] at hs
    exact ⟨ds, rfl, applyDefs_noclash env ex ds _ _ [] (by simp [Ini.core]) hs.1⟩

/-- **C03b** If all files exist and every value can be expanded, loading fails with a duplicate key error exactly when
there is a clash (so clashes are always reported, and DEFAULT duplicates never are). -/
theorem load_dup_iff (fs env : Str → Option Str) (limit : Nat) (file : Str) (ex : Bool) (ds : List Def)
    (hd : definitions fs limit file false = some ds) (hv : ∀ d ∈ ds, ∃ v, readValue env ex d.raw = .ok v) :
    (NoClash ds [] → ∃ ini, load fs env limit file false ex = .ok ini) ∧
    (¬ NoClash ds [] → ∃ k, load fs env limit file false ex = .error (.dup k)) := by
  have hs := readFile_spec fs env limit false { expandEnv := ex } file
  rw [hd] at hs
  obtain ⟨h1, h2⟩ := applyDefs_clash env ex ds hv (Ini.core { expandEnv := ex }) [] (by simp [Ini.core])
  unfold load
  constructor
  · intro hn
    obtain ⟨c, hc⟩ := h1 hn
    cases hr : readFile fs env limit { expandEnv := ex } file false false with
    | ok i => exact ⟨i, rfl⟩
    | error e =>
      rw [hr] at hs
      have hs : applyDefs env ex (Ini.core { expandEnv := ex }) ds = .error e := hs
      rw [hc] at hs; simp at hs
  · intro hn
    obtain ⟨k, hk⟩ := h2 hn
    refine ⟨k, ?_⟩
    cases hr : readFile fs env limit { expandEnv := ex } file false false with
    | ok i =>
      rw [hr] at hs
      have hs : applyDefs env ex (Ini.core { expandEnv := ex }) ds = .ok i.core := hs.1
      rw [hk] at hs; simp at hs
    | error e =>
      rw [hr] at hs
      have hs : applyDefs env ex (Ini.core { expandEnv := ex }) ds = .error e := hs
      rw [hk] at hs
      cases hs; rfl

/-- both branches of C03b occur -/
example : (∃ ds, definitions demoFS 5 c!"d/main.ini" false = some ds ∧ ds.length = 7 ∧
      ∀ d ∈ ds, ∃ v, readValue demoEnv true d.raw = .ok v) ∧
    (load (fun _ => some c!"a=1\nb=2\na=1") demoEnv 5 c!"x" false true = .error (.dup c!"a")) := by
  constructor
  · refine ⟨_, rfl, by decide +kernel, ?_⟩
    have : ∀ d ∈ [(⟨c!"a", c!"1", false⟩ : Def), ⟨c!"b", c!"2", false⟩, ⟨c!"a", c!"9", true⟩, ⟨c!"c", c!"3", true⟩,
        ⟨c!"b", c!"8", true⟩, ⟨c!"c", c!"7", true⟩, ⟨c!"e", c!"$(HOME)", true⟩],
        ∃ v, readValue demoEnv true d.raw = .ok v := by
      intro d hd
      simp only [List.mem_cons, List.not_mem_nil, or_false] at hd
      rcases hd with rfl | rfl | rfl | rfl | rfl | rfl | rfl <;> exact ⟨_, rfl⟩
    exact this
  · decide +kernel

/-! ## C04 order and multiplicity of saved settings -/

/-- **C04** Every stored name is written exactly once: first the names that were read, in the order they were read,
then all others in sorted order; nothing else is written. -/
theorem saved_names (ini : Ini) (hw : ini.params.WF) :
    ∃ a b : List Str,
      (fileLines ini) = ini.includes.map (fun i => c!"INCLUDE(" ++ i ++ c!")") ++
        ini.defaults.map (fun d => c!"DEFAULT(" ++ d ++ c!")") ++ (a ++ b).map (settingLine ini.params) ∧
      (a ++ b).Perm ini.params.keys ∧ (a ++ b).Nodup ∧
      a.Sublist ini.readOrder ∧ (∀ k, k ∈ a ↔ k ∈ ini.readOrder ∧ k ∈ ini.params.keys) ∧
      b.Pairwise (fun x y => strLe x y = true) ∧ (∀ k, k ∈ b ↔ k ∈ ini.params.keys ∧ k ∉ ini.readOrder) := by
  have hp := sortStr_perm ini.params.keys
  have hn : (sortStr ini.params.keys).Nodup := hp.nodup_iff.mpr hw
  obtain ⟨h1, h2, h3, h4, h5⟩ := orderedKeys_spec ini.readOrder _ hn
  refine ⟨_, _, rfl, h1.trans hp, h1.nodup_iff.mpr hn, h2, ?_, ?_, ?_⟩
  · intro k; rw [h3, hp.mem_iff]
  · exact (sortStr_sorted _).sublist h4
  · intro k; rw [h5, hp.mem_iff]

/-- The dictionary of an `IniFile` always has distinct names: after loading, and after every later assignment or
deletion (so the hypothesis of `saved_names` holds for every edit history). -/
theorem params_wf_load (fs env : Str → Option Str) (limit : Nat) (file : Str) (ex : Bool) (ini : Ini)
    (h : load fs env limit file false ex = .ok ini) : ini.params.WF ∧ ini.readOrder = ini.params.keys := by
  have hs := readFile_spec fs env limit false { expandEnv := ex } file
  unfold load at h
  rw [h] at hs
  cases hd : definitions fs limit file false with
  | none => rw [hd] at hs; obtain ⟨e, he⟩ := hs; simp at he
  | some ds =>
    rw [hd] at hs
    exact applyDefs_order env ex ds _ _ hs.1 Dict.WF_nil rfl

/-- edits of a loaded table -/
inductive Edit
  | set (k : Str) (v : Val)
  | delete (ks : List Str)

def applyEdit (i : Ini) : Edit → Ini
  | .set k v => setParam i k v
  | .delete ks => deleteKeys i ks

theorem params_wf_edits (i : Ini) (es : List Edit) (h : i.params.WF) : (es.foldl applyEdit i).params.WF := by
  induction es generalizing i with
  | nil => exact h
  | cons e es ih =>
    apply ih
    cases e with
    | set k v => exact Dict.WF_set k v h
    | delete ks =>
      unfold applyEdit deleteKeys
      simp only
      generalize i.params = p at h ⊢
      induction ks generalizing p with
      | nil => exact h
      | cons k ks ih2 => exact ih2 _ (Dict.WF_erase k h)

/-- deleted names are not stored, hence (by `saved_names`) not written -/
theorem deleted_not_stored (i : Ini) (ks : List Str) (k : Str) (h : k ∈ ks) :
    k ∉ (deleteKeys i ks).params.keys := by
  unfold deleteKeys
  simp only
  generalize i.params = p
  have aux : ∀ (ks : List Str) (p : Dict Str Val), k ∉ p.keys → k ∉ (ks.foldl (fun p k => p.erase k) p).keys := by
    intro ks
    induction ks with
    | nil => intro p h; exact h
    | cons k' ks ih => intro p h; exact ih _ (fun hm => h (Dict.mem_keys_erase.mp hm).2)
  induction ks generalizing p with
  | nil => simp at h
  | cons k' ks ih =>
    rcases List.mem_cons.mp h with rfl | h
    · exact aux ks _ (fun hm => (Dict.mem_keys_erase.mp hm).1 rfl)
    · exact ih h _

example : let i : Ini := { params := [(c!"z", .str c!"1"), (c!"b", .bool true), (c!"a", .other c!"3")],
                           readOrder := [c!"gone", c!"z", c!"z"] }
    i.params.WF ∧ fileLines i = [c!"z=1", c!"a=3", c!"b=T"] := by
  refine ⟨?_, by decide +kernel⟩
  simp [Dict.WF, Dict.keys]

/-! ## C01 save / load round trip -/

theorem filterMap_none_fn {α β : Type} (l : List α) : l.filterMap (fun _ => (none : Option β)) = [] := by
  induction l with
  | nil => rfl
  | cons a l ih => simpa using ih

/-- no environment expansion takes place for a value -/
def NoRef (ex : Bool) (v : Str) : Prop := ex = false ∨ contains c!"$(" v = false

/-- **C01** Reading back the text written by saving gives exactly the same table (values as text), for every table
whose names and values fit on one line.  With `keep_includes` the INCLUDE and DEFAULT lists are recovered too; without
it the statement is for tables without pending INCLUDE/DEFAULT entries. -/
theorem save_load_roundtrip (ini : Ini) (hw : ini.params.WF)
    (hk : ∀ e ∈ ini.params, KeyOK e.1 ∧ ValOK (asIniText e.2)) (ex : Bool)
    (hx : ∀ e ∈ ini.params, NoRef ex (asIniText e.2))
    (hi : ∀ f ∈ ini.includes ++ ini.defaults, OneLine f)
    (keep : Bool) (hkeep : keep = true ∨ (ini.includes = [] ∧ ini.defaults = []))
    (fs env : Str → Option Str) (limit : Nat) (file : Str) (hf : fs file = some (toText ini)) :
    ∃ ini', load fs env (limit + 1) file keep ex = .ok ini' ∧
      (∀ k, ini'.params.get? k = (ini.params.get? k).map (fun v => .str (asIniText v))) ∧
      ini'.params.keys.Perm ini.params.keys ∧
      ini'.includes = ini.includes ∧ ini'.defaults = ini.defaults := by
  have hperm := writeOrder_perm ini hw
  -- every written key is stored with an acceptable value
  have hmem : ∀ k ∈ writeOrder ini, ∃ v, ini.params.get? k = some v ∧ KeyOK k ∧ ValOK (asIniText v) ∧
      NoRef ex (asIniText v) := by
    intro k hkm
    have : k ∈ ini.params.keys := hperm.mem_iff.mp hkm
    obtain ⟨e, he, rfl⟩ := List.mem_map.mp this
    exact ⟨e.2, Dict.get?_of_mem hw he, (hk e he).1, (hk e he).2, hx e he⟩
  let txt : Str → Str := fun k => match ini.params.get? k with | some v => asIniText v | none => []
  have hline : ∀ k ∈ writeOrder ini, settingLine ini.params k = k ++ '=' :: txt k ∧ KeyOK k ∧ ValOK (txt k) ∧
      NoRef ex (txt k) := by
    intro k hkm
    obtain ⟨v, h1, h2, h3, h4⟩ := hmem k hkm
    have ht : txt k = asIniText v := by simp only [txt, h1]
    rw [ht]
    exact ⟨by simp [settingLine, h1], h2, h3, h4⟩
  -- the kinds of the written lines
  have hbody : body (toText ini) = ini.includes.map .incl ++ ini.defaults.map .dflt ++
      (writeOrder ini).map (fun k => .setting k (txt k)) := by
    have hkinds : ∀ l ∈ fileLines ini, OneLine l ∧ l ≠ [] ∧ lineKind l ≠ .stop := by
      intro l hl
      simp only [fileLines, List.mem_append, List.mem_map] at hl
      rcases hl with (⟨f, hf, rfl⟩ | ⟨f, hf, rfl⟩) | ⟨k, hkm, rfl⟩
      · refine ⟨?_, by simp, by rw [lineKind_include]; simp⟩
        have := hi f (by simp [hf])
        constructor
        · simp only [List.mem_append, not_or]; exact ⟨⟨by decide, this.1⟩, by decide⟩
        · simp only [List.mem_append, not_or]; exact ⟨⟨by decide, this.2⟩, by decide⟩
      · refine ⟨?_, by simp, by rw [lineKind_default]; simp⟩
        have := hi f (by simp [hf])
        constructor
        · simp only [List.mem_append, not_or]; exact ⟨⟨by decide, this.1⟩, by decide⟩
        · simp only [List.mem_append, not_or]; exact ⟨⟨by decide, this.2⟩, by decide⟩
      · obtain ⟨h1, h2, h3, _⟩ := hline k hkm
        rw [h1]
        refine ⟨?_, by simp, by rw [lineKind_setting h2 h3]; simp⟩
        constructor
        · simp only [List.mem_append, List.mem_cons, not_or]
          exact ⟨h2.2.2.1.1, by decide, h3.2.1⟩
        · simp only [List.mem_append, List.mem_cons, not_or]
          exact ⟨h2.2.2.1.2, by decide, h3.2.2⟩
    unfold toText
    rw [body_join (fun l hl => (hkinds l hl).1) (fun l hl => (hkinds l hl).2.1) (fun l hl => (hkinds l hl).2.2)]
    unfold fileLines
    rw [List.map_append, List.map_append, List.map_map, List.map_map, List.map_map]
    congr 1
    · congr 1
      · apply List.map_congr_left; intro f _; exact lineKind_include f
      · apply List.map_congr_left; intro f _; exact lineKind_default f
    · apply List.map_congr_left
      intro k hkm
      obtain ⟨h1, h2, h3, _⟩ := hline k hkm
      simp only [Function.comp_apply, h1]
      exact lineKind_setting h2 h3
  have hsett : settingsOf (body (toText ini)) = (writeOrder ini).map (fun k => (k, txt k)) := by
    rw [hbody]
    simp [settingsOf, List.filterMap_append, List.filterMap_map, Function.comp_def, filterMap_none_fn]
  have hincl : includesOf (body (toText ini)) = ini.includes := by
    rw [hbody]
    simp [includesOf, List.filterMap_append, List.filterMap_map, Function.comp_def, filterMap_none_fn]
  have hdefl : defaultsOf (body (toText ini)) = ini.defaults := by
    rw [hbody]
    simp [defaultsOf, List.filterMap_append, List.filterMap_map, Function.comp_def, filterMap_none_fn]
  -- read the lines
  let ds : List Def := (writeOrder ini).map (fun k => ⟨k, txt k, false⟩)
  have hnd : (writeOrder ini).Nodup := hperm.nodup_iff.mpr hw
  have hval : ∀ d ∈ ds, readValue env ex d.raw = .ok d.raw := by
    intro d hd
    obtain ⟨k, hkm, rfl⟩ := List.mem_map.mp hd
    obtain ⟨_, _, _, h4⟩ := hline k hkm
    simp only [readValue]
    rcases h4 with h4 | h4
    · simp [h4]
    · split
      · simp only [expandPlaceholders]
        rw [h4]; rfl
      · rfl
  have hclash : NoClash ds [] := by
    apply noClash_of_nodup
    · have : ds.map (·.key) = writeOrder ini := by simp [ds, Function.comp_def]
      rw [this]; exact hnd
    · simp
  obtain ⟨c', hc'⟩ := (applyDefs_clash env ex ds (fun d hd => ⟨_, hval d hd⟩)
    (Ini.core { expandEnv := ex }) [] (by simp [Ini.core])).1 hclash
  have hget := applyDefs_get env ex ds _ _ hc'
  have hl := readLines_spec env false { ini := { ({ expandEnv := ex } : Ini) with originalFilename := some file } }
    (fileIter (toText ini))
  have hb : (((fileIter (toText ini)).map lineKind).takeWhile (· ≠ .stop)) = body (toText ini) := rfl
  simp only [hb, hsett, List.map_map] at hl
  have hds : (writeOrder ini).map ((fun e : Str × Str => (⟨e.1, e.2, false⟩ : Def)) ∘ fun k => (k, txt k)) = ds := rfl
  rw [hds] at hl
  cases hr : readLines env false { ini := { ({ expandEnv := ex } : Ini) with originalFilename := some file } }
      (fileIter (toText ini)) with
  | error e =>
    rw [hr] at hl
    have hl : applyDefs env ex (Ini.core { expandEnv := ex }) ds = .error e := hl
    rw [hc'] at hl; simp at hl
  | ok l =>
    rw [hr] at hl
    obtain ⟨h1, h2, h3, h4, h5, h6, h7⟩ := hl
    have h1 : applyDefs env ex (Ini.core { expandEnv := ex }) ds = .ok l.ini.core := h1
    rw [hc'] at h1
    simp only [Except.ok.injEq] at h1
    subst h1
    rw [hincl] at h2
    rw [hdefl] at h3
    simp only [List.nil_append] at h2 h3 h6 h7
    -- the table
    have htab : ∀ k, l.ini.params.get? k = (ini.params.get? k).map (fun v => .str (asIniText v)) := by
      intro k
      have hg := (hget k).2 rfl
      by_cases hkm : k ∈ writeOrder ini
      · obtain ⟨v, hv1, _⟩ := hmem k hkm
        have hfd : firstDef ds k = some ⟨k, txt k, false⟩ := by
          unfold firstDef
          simp only [ds, List.find?_map]
          have : List.find? ((fun d : Def => d.key == k) ∘ fun k => (⟨k, txt k, false⟩ : Def)) (writeOrder ini) = some k := by
            have : ((fun d : Def => d.key == k) ∘ fun k => (⟨k, txt k, false⟩ : Def)) = (fun x => x == k) := rfl
            rw [this]
            cases hfind : List.find? (fun x => x == k) (writeOrder ini) with
            | none =>
              rw [List.find?_eq_none] at hfind
              exact absurd (by simp) (hfind k hkm)
            | some x =>
              have := List.find?_some hfind
              simp at this; rw [this]
          rw [this]; rfl
        obtain ⟨w, hw1, hw2⟩ := hg.2 _ hfd
        have hvv := hval ⟨k, txt k, false⟩ (List.mem_map.mpr ⟨k, hkm, rfl⟩)
        simp only at hvv hw1
        rw [hvv] at hw1
        simp only [Except.ok.injEq] at hw1
        subst hw1
        change l.ini.params.get? k = some (.str (txt k)) at hw2
        rw [hw2, hv1]
        simp [txt, hv1]
      · have hfd : firstDef ds k = none := by
          unfold firstDef
          rw [List.find?_eq_none]
          intro d hd
          obtain ⟨k', hk', rfl⟩ := List.mem_map.mp hd
          simpa using fun e : k' = k => hkm (e ▸ hk')
        have := hg.1 hfd
        change l.ini.params.get? k = none at this
        rw [this]
        have : k ∉ ini.params.keys := fun h => hkm (hperm.mem_iff.mpr h)
        rw [Dict.get?_eq_none.mpr this]; rfl
    have hwf := (applyDefs_order env ex ds _ _ hc' Dict.WF_nil rfl).1
    have hkeys : l.ini.params.keys.Perm ini.params.keys := by
      change l.ini.core.params.keys.Perm _
      rw [List.perm_ext_iff_of_nodup hwf hw]
      intro k
      rw [← Dict.has_iff, ← Dict.has_iff]
      unfold Dict.has
      change (l.ini.params.get? k).isSome = true ↔ _
      rw [htab k]
      cases ini.params.get? k <;> simp
    unfold load
    simp only [readFile, hf, hr]
    rcases hkeep with rfl | ⟨hk1, hk2⟩
    · refine ⟨_, if_pos rfl, htab, hkeys, ?_, ?_⟩
      · simp only [h6, h2, List.nil_append]
      · simp only [h7, h3, List.nil_append]
    · cases keep with
      | true =>
        refine ⟨_, if_pos rfl, htab, hkeys, ?_, ?_⟩
        · simp only [h6, h2, List.nil_append]
        · simp only [h7, h3, List.nil_append]
      | false =>
        rw [h2, h3, hk1, hk2]
        refine ⟨l.ini, by simp [readFiles], htab, hkeys, ?_, ?_⟩
        · exact h6
        · exact h7

/-- a table meeting the hypotheses of the round trip, with an awkward value -/
example : let i : Ini := { params := [(c!"file_root", .str c!"a=b # c"), (c!"on", .bool true), (c!"n(1)", .str [])] }
    i.params.WF ∧ (∀ e ∈ i.params, KeyOK e.1 ∧ ValOK (asIniText e.2)) ∧
    (∀ e ∈ i.params, NoRef true (asIniText e.2)) := by
  refine ⟨by simp [Dict.WF, Dict.keys], ?_, ?_⟩
  · intro e he
    simp only [List.mem_cons, List.not_mem_nil, or_false] at he
    unfold KeyOK ValOK
    rcases he with rfl | rfl | rfl <;> decide
  · intro e he
    simp only [List.mem_cons, List.not_mem_nil, or_false] at he
    rcases he with rfl | rfl | rfl <;> (right; decide)

/-- what is read back from a saved table containing the value `$(X)` -/
def expandedIni : Ini :=
  { params := [(c!"a", .str [])], readOrder := [c!"a"], originalFilename := some c!"f", expandEnv := true }

/-- With environment expansion on (the default), the round trip fails for values containing `$(`: the value is
expanded again when the saved file is read. -/
theorem roundtrip_fails_for_references :
    ∃ ini : Ini, ini.params = [(c!"a", .str c!"$(X)")] ∧
      ∀ fs : Str → Option Str, fs c!"f" = some (toText ini) →
      load fs (fun _ => none) 3 c!"f" false true ≠ .ok { ini with readOrder := [c!"a"], originalFilename := some c!"f" } ∧
      ∃ ini', load fs (fun _ => none) 3 c!"f" false true = .ok ini' ∧ ini'.params = [(c!"a", .str [])] := by
  refine ⟨{ params := [(c!"a", .str c!"$(X)")] }, rfl, ?_⟩
  intro fs hf
  have ht : toText { params := [(c!"a", .str c!"$(X)")] } = c!"a=$(X)" := by decide +kernel
  rw [ht] at hf
  unfold load readFile
  simp only [hf]
  have hr : readLines (fun _ => none) false { ini := { originalFilename := some c!"f", expandEnv := true } }
      (fileIter c!"a=$(X)") = .ok (⟨expandedIni, [], [], []⟩ : Loop) := by decide +kernel
  have h : (match readLines (fun _ => none) false { ini := { originalFilename := some c!"f", expandEnv := true } }
      (fileIter c!"a=$(X)") with
      | Except.error e => Except.error e
      | Except.ok l =>
        if false = true then
          .ok { l.ini with includes := l.ini.includes ++ l.fileincludes, defaults := l.ini.defaults ++ l.filedefaults }
        else
          match readFiles (fun i f nd => readFile fs (fun _ => none) 2 i f false nd) c!"f" false l.ini l.fileincludes with
          | .error e => .error e
          | .ok ini' => readFiles (fun i f nd => readFile fs (fun _ => none) 2 i f false nd) c!"f" true ini'
              l.filedefaults) = Except.ok expandedIni := by
    rw [hr]; rfl
  constructor
  · intro h'
    have := h.symm.trans h'
    revert this
    decide
  · exact ⟨_, h, rfl⟩

/-! ## C06 comments -/

/-- **C06** For the loaded file itself (not for DEFAULT files, see `comments_leak_fails`): if a setting line
`k = raw` is directly preceded by the comment lines `ts` (and before these there is no comment line), then the comments
stored for `k` are exactly `ts`. -/
theorem comments_direct (fs env : Str → Option Str) (limit : Nat) (file text : Str) (keep ex : Bool) (ini : Ini)
    (h : load fs env limit file keep ex = .ok ini) (hf : fs file = some text)
    (pre cs post : List Str) (line : Str) (hlines : fileIter text = pre ++ (cs ++ line :: post))
    (hpre : ∀ x ∈ pre, lineKind x ≠ .stop) (hlast : ∀ x, pre.getLast? = some x → ∀ t, lineKind x ≠ .comment t)
    (ts : List Str) (hcs : cs.map lineKind = ts.map .comment) (k raw : Str) (hline : lineKind line = .setting k raw) :
    ini.comments.get? k = if ts = [] then none else some ts := by
  cases limit with
  | zero => simp [load, readFile] at h
  | succ n =>
    unfold load at h
    simp only [readFile, hf] at h
    cases hr : readLines env false { ini := { ({ expandEnv := ex } : Ini) with originalFilename := some file } }
        (fileIter text) with
    | error e => rw [hr] at h; simp at h
    | ok l =>
      rw [hr] at h
      simp only at h
      -- comments of k after reading the lines of the main file
      have hmain : l.ini.comments.get? k = (if ts = [] then none else some ts) ∧ k ∈ l.ini.params.keys := by
        rw [hlines, readLines_append _ _ _ _ _ hpre] at hr
        cases hr1 : readLines env false { ini := { ({ expandEnv := ex } : Ini) with originalFilename := some file } }
            pre with
        | error e => rw [hr1] at hr; simp at hr
        | ok l1 =>
          rw [hr1] at hr
          simp only at hr
          have hinv : ComInv l1.ini :=
            (readLines_pres env false pre _ _ hr1).1 (by intro k hk; simp at hk)
          have hp := readLines_pending env pre hpre hlast _ _ rfl hr1
          have hcns : ∀ x ∈ cs, lineKind x ≠ .stop := by
            intro x hx he
            have : lineKind x ∈ cs.map lineKind := List.mem_map.mpr ⟨x, hx, rfl⟩
            rw [hcs, he] at this
            simp at this
          rw [readLines_append _ _ _ _ _ hcns, readLines_comments env false cs ts hcs, hp] at hr
          simp only [List.nil_append, readLines, readLine_kind, hline, Bool.false_eq_true, if_false] at hr
          by_cases hh : l1.ini.params.has k = true
          · simp [hh] at hr
          · have hm : k ∉ l1.ini.params.keys := fun hm => hh (Dict.has_iff.mpr hm)
            simp only [hh, Bool.false_eq_true, if_false] at hr
            cases hv : readValue env l1.ini.expandEnv raw with
            | error e => rw [hv] at hr; simp at hr
            | ok v =>
              rw [hv] at hr
              simp only at hr
              have h2 := (readLines_pres env false post _ _ hr).2 k
                (by simp only; exact Dict.mem_keys_set.mpr (Or.inl rfl))
              refine ⟨?_, h2.1⟩
              rw [h2.2]
              simp only
              cases ts with
              | nil =>
                simp only [List.length_nil, ne_eq, not_true, if_false, if_true]
                exact Dict.get?_eq_none.mpr (fun hk => hm (hinv k hk))
              | cons t ts =>
                simp [Dict.get?_set_self]
      cases keep with
      | true =>
        simp only [if_true, Except.ok.injEq] at h
        subst h
        exact hmain.1
      | false =>
        simp only [Bool.false_eq_true, if_false] at h
        cases hrf : readFiles (fun i f nd => readFile fs env n i f false nd) file false l.ini l.fileincludes with
        | error e => rw [hrf] at h; simp at h
        | ok i1 =>
          rw [hrf] at h
          simp only at h
          have a := (readFiles_pres _ file false (fun i g i' h => readFile_pres fs env n false false i i' g h) _ _ _
            hrf).2 k hmain.2
          have b := (readFiles_pres _ file true (fun i g i' h => readFile_pres fs env n true false i i' g h) _ _ _
            h).2 k a.1
          rw [b.2, a.2, hmain.1]

/-- the hypotheses of `comments_direct` are satisfiable with two comment lines -/
example : ∃ pre cs post line ts,
    fileIter c!"a=1\n# one\n#two\nb = 2\nc=3" = pre ++ (cs ++ line :: post) ∧
    (∀ x ∈ pre, lineKind x ≠ .stop) ∧ (∀ x, pre.getLast? = some x → ∀ t, lineKind x ≠ .comment t) ∧
    cs.map lineKind = ts.map .comment ∧ lineKind line = .setting c!"b" c!"2" ∧ ts = [c!" one", c!"two"] := by
  refine ⟨[c!"a=1\n"], [c!"# one\n", c!"#two\n"], [c!"c=3"], c!"b = 2\n", [c!" one", c!"two"], by decide +kernel,
    ?_, ?_, by decide +kernel, by decide +kernel, rfl⟩
  · intro x hx
    simp only [List.mem_cons, List.not_mem_nil, or_false] at hx
    subst hx; decide +kernel
  · intro x hx t
    simp at hx
    subst hx
    have : lineKind ['a', '=', '1', '\n'] = .setting c!"a" c!"1" := by decide +kernel
    rw [this]; simp

/-- **C06 fails for DEFAULT files**: when a setting of a DEFAULT file is skipped because it is already defined, the
comment that precedes it is attached to the next setting instead (`continue` at inifile.py:94 bypasses the reset at
line 104). -/
theorem comments_leak_fails :
    let fs : Str → Option Str := fun f =>
      if f = c!"m" then some c!"a=1\nDEFAULT(d)" else if f = c!"d" then some c!"# about a\na=2\nb=3" else none
    ∃ ini, load fs (fun _ => none) 3 c!"m" false true = .ok ini ∧
      ini.comments.get? c!"b" = some [c!" about a"] := by
  exact ⟨_, rfl, by decide +kernel⟩

/-! ## C51 the file an IniFile belongs to -/

/-- **C51 (partial)** If the loaded file has no INCLUDE or DEFAULT lines (or `keep_includes` is used), relative names
are resolved against its directory and saving without a name writes back to it. -/
theorem loaded_filename_partial (fs env : Str → Option Str) (limit : Nat) (file text : Str) (keep ex : Bool) (ini : Ini)
    (h : load fs env limit file keep ex = .ok ini) (hf : fs file = some text) (hne : file ≠ [])
    (hkeep : keep = true ∨ (includesOf (body text) = [] ∧ defaultsOf (body text) = [])) :
    saveFile ini none = .ok (file, toText ini) ∧
    ∀ name s, getString ini name none = .ok s →
      relativeFileName ini name none = .ok (if isAbs s then s else pathJoin (dirname file) s) := by
  have horig : ini.originalFilename = some file := by
    cases limit with
    | zero => simp [load, readFile] at h
    | succ n =>
      unfold load at h
      simp only [readFile, hf] at h
      have hl := readLines_spec env false
        { ini := { ({ expandEnv := ex } : Ini) with originalFilename := some file } } (fileIter text)
      cases hr : readLines env false { ini := { ({ expandEnv := ex } : Ini) with originalFilename := some file } }
          (fileIter text) with
      | error e => rw [hr] at h; simp at h
      | ok l =>
        rw [hr] at h hl
        simp only at h hl
        obtain ⟨_, h2, h3, _, h5, _, _⟩ := hl
        have hb : (((fileIter text).map lineKind).takeWhile (· ≠ .stop)) = body text := rfl
        rw [hb] at h2 h3
        simp only [List.nil_append] at h2 h3
        cases keep with
        | true => simp only [if_true, Except.ok.injEq] at h; subst h; exact h5
        | false =>
          rcases hkeep with hk | ⟨hk1, hk2⟩
          · simp at hk
          · rw [h2, h3, hk1, hk2] at h
            simp [readFiles] at h
            subst h; exact h5
  constructor
  · unfold saveFile
    simp only [horig]
    cases file with
    | nil => exact absurd rfl hne
    | cons => rfl
  · intro name s hs
    unfold relativeFileName
    simp only [hs, horig]
    cases isAbs s <;> rfl

/-- **C51 fails with INCLUDE or DEFAULT**: after loading `d/main.ini` the object believes it belongs to the last
DEFAULT file, so `saveFile()` overwrites that file and relative names resolve in its directory. -/
theorem loaded_filename_fails :
    let fs : Str → Option Str := fun f =>
      if f = c!"d/main.ini" then some c!"data=x.txt\nDEFAULT(sub/def.ini)"
      else if f = c!"d/sub/def.ini" then some c!"b=1" else none
    ∃ ini, load fs (fun _ => none) 3 c!"d/main.ini" false true = .ok ini ∧
      saveFile ini none = .ok (c!"d/sub/def.ini", c!"data=x.txt\nb=1") ∧
      relativeFileName ini c!"data" none = .ok c!"d/sub/x.txt" := by
  exact ⟨_, rfl, by decide +kernel, by decide +kernel⟩

/-! ## C52 booleans survive saving -/

/-- **C52** A boolean stored under a name is read back as the same boolean after saving and loading, whatever default
the caller supplies. -/
theorem bool_roundtrip (ini ini' : Ini) (name : Str) (b : Bool) (default : Option Bool)
    (hb : ini.params.get? name = some (.bool b))
    (hr : ∀ k, ini'.params.get? k = (ini.params.get? k).map (fun v => .str (asIniText v))) :
    getBool ini name default = .ok b ∧ getBool ini' name default = .ok b := by
  have h' : ini'.params.get? name = some (.str (asIniText (.bool b))) := by rw [hr, hb]; rfl
  constructor
  · simp [getBool, isSet, hb]
  · cases b <;> simp [getBool, isSet, h', asIniText]

/-- **C52b** A value that is neither empty nor starts with T or F is rejected, never read as a boolean; an empty or
missing value gives the default if there is one and an error otherwise. -/
theorem bool_decision (ini : Ini) (name : Str) (default : Option Bool) (s : Str)
    (h : ini.params.get? name = some (.str s)) :
    getBool ini name default =
      if s = [] then (match default with | some d => .ok d | none => .error (.undefined name))
      else if s.head? = some 'T' then .ok true
      else if s.head? = some 'F' then .ok false
      else .error (.notBool name) := by
  cases s with
  | nil => cases default <;> simp [getBool, isSet, h]
  | cons c cs =>
    simp only [getBool, isSet, h]
    by_cases h1 : c = 'T'
    · subst h1; simp
    · by_cases h2 : c = 'F'
      · subst h2; simp
      · simp only [List.head?_cons, Option.some.injEq, h1, h2, if_false]
        simp
        split <;> simp_all

example : getBool { params := [(c!"x", .str c!"0")] } c!"x" (some true) = .error (.notBool c!"x") := by decide

/-! ## C56: INCLUDE and DEFAULT lines -/

/-- **C56** The file named in an `INCLUDE(..)` line is the text between the first `(` and the last `)`, brackets in the
name included, whatever follows the last bracket. -/
theorem include_name (name rest : Str) (h : ')' ∉ rest) (ht : Trim (c!"INCLUDE(" ++ name ++ c!")" ++ rest)) :
    lineKind (c!"INCLUDE(" ++ name ++ c!")" ++ rest) = .incl name ∧
    bracketArg (c!"INCLUDE(" ++ name ++ c!")" ++ rest) = name := by
  have hb : between (c!"INCLUDE(" ++ name ++ c!")" ++ rest) = name := by
    have e : c!"INCLUDE(" ++ name ++ c!")" ++ rest = c!"INCLUDE" ++ '(' :: (name ++ ')' :: rest) := by simp
    rw [e, between_eq _ _ (by decide), if_pos (by simp)]
    have e2 : (name ++ ')' :: rest).reverse = rest.reverse ++ ')' :: name.reverse := by simp
    rw [e2, dropWhile_ne_append (by simpa using h)]
    simp
  have hp : c!"INCLUDE(" <+: c!"INCLUDE(" ++ name ++ c!")" ++ rest := ⟨name ++ c!")" ++ rest, by simp⟩
  constructor
  · unfold lineKind
    simp only [strip_eq_self ht]
    rw [if_neg, if_neg, if_pos hp, hb]
    · simp
    · simp
  · rw [bracketArg_prefix (p := c!"INCLUDE") (by decide) (by decide) hp, hb]

example : lineKind c!"INCLUDE(a/b.ini) more" = .incl c!"a/b.ini" := by decide

example : lineKind c!"INCLUDE(a(1).ini) trailing text" = .incl c!"a(1).ini" := by decide

/-- without the closing bracket the last character of the file name is lost -/
theorem include_unclosed_fails : lineKind c!"INCLUDE(common.ini" = .incl c!"common.in" := by decide

/-- with `keep_includes` the lines of the file are recorded, in order, after the ones already known -/
theorem keep_includes (fs env : Str → Option Str) (n : Nat) (ini ini' : Ini) (file text : Str) (nd : Bool)
    (hf : fs file = some text) (h : readFile fs env (n + 1) ini file true nd = .ok ini') :
    ini'.includes = ini.includes ++ includesOf (body text) ∧ ini'.defaults = ini.defaults ++ defaultsOf (body text) := by
  unfold readFile at h
  rw [hf] at h
  simp only [if_true] at h
  have hs := readLines_spec env nd { ini := { ini with originalFilename := some file } } (fileIter text)
  cases hr : readLines env nd { ini := { ini with originalFilename := some file } } (fileIter text) with
  | error e => rw [hr] at h; cases h
  | ok l =>
    rw [hr] at h hs
    simp only [Except.ok.injEq] at h
    obtain ⟨_, h2, h3, _, _, h6, h7⟩ := hs
    subst h
    simp only [h2, h3, h6, h7, List.nil_append]
    exact ⟨rfl, rfl⟩

example : ∃ i, readFile demoFS demoEnv 5 { includes := [c!"x"] } c!"d/main.ini" true false = .ok i ∧
    i.includes = [c!"x", c!"inc.ini"] := by
  refine ⟨_, rfl, ?_⟩
  decide +kernel

end Verif.IniFile
