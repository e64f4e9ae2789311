import Verif.Model.GridFiles
import Verif.Props.ParamNames
import Verif.Props.IniFile
import Verif.Lemmas.Str
import Mathlib.Data.Rat.Floor
import Mathlib.Tactic.Linarith
import Mathlib.Tactic.NormNum
import Mathlib.Tactic.FieldSimp
import Mathlib.Data.Finset.Card

/-!
# C50, C78: copying the files of a grid, deleting the files of a run
-/

namespace Verif.GridFiles
open Verif.Py
open Verif.ParamNames (Glob fnmatchcase fnmatchcase_iff)

set_option linter.unusedSectionVars false

/-! ### patterns -/

/-- a text without special characters -/
def Plain (p : Str) : Prop := ∀ c ∈ p, c ≠ '*' ∧ c ≠ '?' ∧ c ≠ '['

instance (p : Str) : Decidable (Plain p) := inferInstanceAs (Decidable (∀ c ∈ p, c ≠ '*' ∧ c ≠ '?' ∧ c ≠ '['))

theorem glob_plain (p q s : Str) (h : Plain p) : Glob (p ++ q) s ↔ ∃ t, s = p ++ t ∧ Glob q t := by
  induction p generalizing s with
  | nil => simp
  | cons c p ih =>
    obtain ⟨h1, h2, h3⟩ := h c (by simp)
    have hp : Plain p := fun d hd => h d (by simp [hd])
    constructor
    · intro hg
      generalize hz : (c :: p) ++ q = z at hg
      cases hg with
      | nil => simp at hz
      | star u h => simp at hz; exact absurd hz.1 h1
      | any d h => simp at hz; exact absurd hz.1 h2
      | lit _ _ _ hg =>
        simp at hz
        obtain ⟨rfl, rfl⟩ := hz
        obtain ⟨t, rfl, ht⟩ := (ih _ hp).mp hg
        exact ⟨t, rfl, ht⟩
    · rintro ⟨t, rfl, ht⟩
      exact Glob.lit h1 h2 h3 ((ih _ hp).mpr ⟨t, rfl, ht⟩)

theorem glob_nil (s : Str) : Glob [] s ↔ s = [] := by
  constructor
  · intro h; cases h; rfl
  · rintro rfl; exact .nil

theorem glob_star (q s : Str) : Glob ('*' :: q) s ↔ ∃ u t, s = u ++ t ∧ Glob q t := by
  constructor
  · intro h
    generalize hz : '*' :: q = z at h
    cases h with
    | nil => simp at hz
    | star u h => simp at hz; subst hz; exact ⟨u, _, rfl, h⟩
    | any d h => simp at hz
    | lit h1 => simp at hz; exact absurd hz.1.symm h1
  · rintro ⟨u, t, rfl, ht⟩; exact .star u ht

theorem plain_append {p q : Str} (hp : Plain p) (hq : Plain q) : Plain (p ++ q) := by
  intro c hc
  rcases List.mem_append.mp hc with h | h
  · exact hp c h
  · exact hq c h

theorem plain_no_bracket {p : Str} (hp : Plain p) : '[' ∉ p := fun h => (hp _ h).2.2 rfl

/-- what a job name followed by `.*` matches -/
theorem match_dot (name f : Str) (h : Plain name) :
    fnmatchcase f (name ++ c!".*") = true ↔ ∃ u, f = name ++ c!"." ++ u := by
  have hd : Plain (name ++ c!".") := plain_append h (by decide)
  have e : name ++ c!".*" = (name ++ c!".") ++ c!"*" := by simp
  rw [fnmatchcase_iff _ _ (by simp [plain_no_bracket h]), e, glob_plain _ _ _ hd]
  constructor
  · rintro ⟨t, rfl, _⟩; exact ⟨t, rfl⟩
  · rintro ⟨u, rfl⟩
    exact ⟨u, rfl, (glob_star _ _).mpr ⟨u, [], by simp, .nil⟩⟩

/-! ### lines -/

theorem linesOf_flatten (s : Str) : (linesOf s).flatten = s := by
  induction s with
  | nil => rfl
  | cons c cs ih =>
    rw [linesOf.eq_def]; simp only
    split
    · rename_i h; simp at h; simp [ih, h]
    · rename_i h
      split
      · simp
      · rename_i d ds hl; rw [hl] at ih; simp at ih
      · rename_i d ds l ls hl; rw [hl] at ih; simpa using ih

theorem fileIter_flatten (s : Str) : (fileIter s).flatten = universalNewlines s := linesOf_flatten _

theorem linesOf_eq_nil (s : Str) : linesOf s = [] ↔ s = [] := by
  constructor
  · intro h; rw [← linesOf_flatten s, h]; rfl
  · rintro rfl; rfl

theorem linesOf_nonempty (s : Str) : ∀ l ∈ linesOf s, l ≠ [] := by
  induction s with
  | nil => simp [linesOf]
  | cons c cs ih =>
    rw [linesOf.eq_def]; simp only
    split
    · intro l hl; rcases List.mem_cons.mp hl with rfl | h
      · simp
      · exact ih _ h
    · split
      · simp
      · simp
      · rename_i d ds l ls hl
        intro m hm; rcases List.mem_cons.mp hm with rfl | h
        · simp
        · rw [hl] at ih; exact ih _ (by simp [h])

/-! ### the copied chain -/

section
variable {K : Type} [Field K] [LinearOrder K] [IsStrictOrderedRing K] [FloorRing K]

/-- `post` is what is left of the lines after removing the fraction `f` -/
def Tail (f : K) (lines post : List Str) : Prop :=
  ∃ pre, lines = pre ++ post ∧ (pre.length : K) ≤ lines.length * f ∧ lines.length * f < pre.length + 1

theorem pyInt_nonneg (x : K) (h : 0 ≤ x) : pyInt x = ⌊x⌋ := by simp [pyInt, h]

/-- the lines kept, for a fraction between 0 and 1 -/
theorem kept_tail (f : K) (text : Str) (h0 : 0 ≤ f) (h1 : f < 1) (hne : fileIter text ≠ []) :
    Tail f (fileIter text) (keptLines f text) ∧ keptLines f text ≠ [] := by
  have hn : 0 < (fileIter text).length := List.length_pos_iff.mpr hne
  have hnK : (0 : K) < (fileIter text).length := by exact_mod_cast hn
  have hx : (0 : K) ≤ (fileIter text).length * f := mul_nonneg hnK.le h0
  have hfl : 0 ≤ ⌊((fileIter text).length : K) * f⌋ := Int.floor_nonneg.mpr hx
  obtain ⟨k, hk⟩ := Int.eq_ofNat_of_zero_le hfl
  have e : keptLines f text = (fileIter text).drop k := by
    simp [keptLines, pyInt_nonneg _ hx, sliceFrom, hk]
  have hk1 : (k : K) ≤ (fileIter text).length * f := by
    have := Int.floor_le (((fileIter text).length : K) * f); rw [hk] at this; exact_mod_cast this
  have hk2 : ((fileIter text).length : K) * f < k + 1 := by
    have := Int.lt_floor_add_one (((fileIter text).length : K) * f); rw [hk] at this; exact_mod_cast this
  have hlt : k < (fileIter text).length := by
    have : (k : K) < (fileIter text).length := by nlinarith
    exact_mod_cast this
  refine ⟨⟨(fileIter text).take k, ?_, ?_, ?_⟩, ?_⟩
  · rw [e, List.take_append_drop]
  · rw [List.length_take, min_eq_left hlt.le]; exact hk1
  · rw [List.length_take, min_eq_left hlt.le]; exact hk2
  · rw [e]; intro h; rw [List.drop_eq_nil_iff] at h; omega

theorem tail_unique (f : K) (lines p q : List Str) (hp : Tail f lines p) (hq : Tail f lines q) : p = q := by
  obtain ⟨a, ha, ha1, ha2⟩ := hp
  obtain ⟨b, hb, hb1, hb2⟩ := hq
  have h1 : (a.length : K) < b.length + 1 := by linarith
  have h2 : (b.length : K) < a.length + 1 := by linarith
  have h1 : a.length < b.length + 1 := by exact_mod_cast h1
  have h2 : b.length < a.length + 1 := by exact_mod_cast h2
  rw [ha] at hb
  exact (List.append_inj hb (by omega)).2

/-! ### the chain files -/

theorem chainFile_inj {name : Str} {i k : Nat} (h : chainFile name i = chainFile name k) : i = k := by
  simp only [chainFile, List.append_assoc, List.append_cancel_left_eq, List.append_cancel_right_eq] at h
  exact strNat_injective h

theorem strNat_no {i : Nat} {c : Char} (hc : c.isDigit = false) : c ∉ strNat i := by
  intro h; rw [strNat_isDigit h] at hc; cases hc

theorem mem_chainLoop (ex : Nat → Bool) (fuel i k : Nat) :
    k ∈ chainLoop ex fuel i ↔ i ≤ k ∧ k < i + fuel ∧ ∀ m, i ≤ m → m ≤ k → ex m = true := by
  induction fuel generalizing i with
  | zero => simp [chainLoop]; omega
  | succ n ih =>
    rw [chainLoop]
    split
    · rename_i hi
      rw [List.mem_cons, ih]
      constructor
      · rintro (rfl | ⟨h1, h2, h3⟩)
        · exact ⟨le_refl _, by omega, fun m h1 h2 => by rw [show m = k by omega]; exact hi⟩
        · refine ⟨by omega, by omega, fun m hm1 hm2 => ?_⟩
          by_cases hm : m = i
          · rw [hm]; exact hi
          · exact h3 m (by omega) hm2
      · rintro ⟨h1, h2, h3⟩
        by_cases hk : k = i
        · exact .inl hk
        · exact .inr ⟨by omega, by omega, fun m hm1 hm2 => h3 m (by omega) hm2⟩
    · rename_i hi
      simp only [List.not_mem_nil, false_iff]
      rintro ⟨h1, _, h3⟩
      exact hi (h3 i (le_refl _) h1)

/-- a file is there -/
def There (fs : FS) (path : Str) : Prop := ∃ d, (path, d) ∈ fs

theorem there_iff (fs : FS) (p : Str) : There fs p ↔ p ∈ fs.keys := by
  simp [There, Dict.keys]

theorem has_there (fs : FS) (p : Str) : fs.has p = true ↔ There fs p := by rw [there_iff, Dict.has_iff]

/-- **C50** The chain files copied are those numbered from one up to the first number that is missing. -/
theorem chainNums_spec (fs : FS) (j : JobD) (i : Nat) :
    i ∈ chainNums fs j ↔ 1 ≤ i ∧ ∀ m, 1 ≤ m → m ≤ i → There fs (j.chainPath ++ chainFile j.name m) := by
  rw [chainNums, mem_chainLoop]
  simp only [has_there]
  constructor
  · rintro ⟨h1, _, h3⟩; exact ⟨h1, h3⟩
  · rintro ⟨h1, h3⟩
    refine ⟨h1, ?_, h3⟩
    -- the files have distinct names, so there are at most as many as files
    have hsub : ((List.range i).map (fun m => j.chainPath ++ chainFile j.name (m + 1))) ⊆ fs.keys := by
      intro p hp
      obtain ⟨m, hm, rfl⟩ := List.mem_map.mp hp
      exact (there_iff _ _).mp (h3 (m + 1) (by omega) (by have := List.mem_range.mp hm; omega))
    have hnd : ((List.range i).map (fun m => j.chainPath ++ chainFile j.name (m + 1))).Nodup := by
      apply List.Nodup.map _ List.nodup_range
      intro a b h
      have := chainFile_inj (List.append_cancel_left h)
      omega
    have := (hnd.subperm hsub).length_le
    simp [Dict.keys] at this
    omega

/-! ### the target directory -/

theorem get?_foldl_none {k : Str} (ws : List (Str × Content)) (d : Dict Str Content) (h : ∀ w ∈ ws, w.1 ≠ k) :
    (ws.foldl (fun d w => d.set w.1 w.2) d).get? k = d.get? k := by
  induction ws generalizing d with
  | nil => rfl
  | cons w ws ih =>
    rw [List.foldl_cons, ih _ (fun w hw => h w (by simp [hw])), Dict.get?_set_of_ne _ _ (Ne.symm (h w (by simp)))]

theorem get?_foldl_all {k : Str} {v : Content} (ws : List (Str × Content)) (d : Dict Str Content)
    (hall : ∀ w ∈ ws, w.1 = k → w.2 = v) (h : d.get? k = some v ∨ ∃ w ∈ ws, w.1 = k) :
    (ws.foldl (fun d w => d.set w.1 w.2) d).get? k = some v := by
  induction ws generalizing d with
  | nil => rcases h with h | ⟨w, hw, _⟩
           · exact h
           · cases hw
  | cons w ws ih =>
    rw [List.foldl_cons]
    apply ih _ (fun w hw => hall w (by simp [hw]))
    by_cases hw : w.1 = k
    · left; rw [Dict.get?_set, if_pos hw.symm, hall w (by simp) hw]
    · rcases h with h | ⟨w', hw', hk⟩
      · left; rw [Dict.get?_set_of_ne _ _ (Ne.symm hw)]; exact h
      · rcases List.mem_cons.mp hw' with rfl | hw'
        · exact absurd hk hw
        · exact .inr ⟨w', hw', hk⟩

theorem target_append (as bs : List (Str × Content)) (k : Str) (v : Content)
    (hall : ∀ w ∈ bs, w.1 = k → w.2 = v) (h : ∃ w ∈ bs, w.1 = k) : (target (as ++ bs)).get? k = some v := by
  rw [target, List.foldl_append]
  exact get?_foldl_all _ _ hall (.inr h)

theorem target_left (as bs : List (Str × Content)) (k : Str) (hb : ∀ w ∈ bs, w.1 ≠ k) :
    (target (as ++ bs)).get? k = (target as).get? k := by
  rw [target, List.foldl_append, get?_foldl_none _ _ hb]; rfl

theorem target_all (ws : List (Str × Content)) (k : Str) (v : Content)
    (hall : ∀ w ∈ ws, w.1 = k → w.2 = v) (h : ∃ w ∈ ws, w.1 = k) : (target ws).get? k = some v :=
  target_append [] ws k v hall h

/-! ### what one copy writes -/

/-- the text of a file -/
def Text (fs : FS) (path t : Str) : Prop := ∃ d, fs.get? path = some d ∧ d.text = t

theorem text_there {fs : FS} {p t : Str} (h : Text fs p t) : There fs p := by
  obtain ⟨d, h, _⟩ := h; exact ⟨d, Dict.mem_of_get? h⟩

theorem there_text {fs : FS} {p : Str} (h : There fs p) : ∃ t, Text fs p t := by
  rw [there_iff, ← Dict.has_iff, Dict.has, Option.isSome_iff_exists] at h
  obtain ⟨d, h⟩ := h; exact ⟨d.text, d, h, rfl⟩

theorem text_unique {fs : FS} {p t u : Str} (h : Text fs p t) (h2 : Text fs p u) : t = u := by
  obtain ⟨d, h, rfl⟩ := h; obtain ⟨e, h2, rfl⟩ := h2
  rw [h] at h2; cases h2; rfl

theorem doCopy_key (a : Args K) (fs : FS) (s dest f : Str) (b : Bool) : ∀ w ∈ doCopy a fs s dest f b, w.1 = dest ++ f := by
  unfold doCopy
  intro w hw
  split at hw
  · simp at hw
  · simp only at hw
    split at hw
    · simp at hw
    · repeat' (split at hw)
      all_goals (simp only [List.mem_singleton] at hw; subst hw; rfl)

theorem doCopy_plain (a : Args K) (fs : FS) (s dest f t : Str) (b : Bool) (hd : a.dryrun = false) (hs : a.symLink = false)
    (ht : Text fs (s ++ f) t) (h : b = false ∨ a.frac = 0 ∨ keptLines a.frac t = []) :
    doCopy a fs s dest f b = [(dest ++ f, .text t)] := by
  obtain ⟨d, hg, rfl⟩ := ht
  unfold doCopy
  rw [hg]
  simp only [hd, hs, Bool.false_eq_true, if_false]
  rw [if_neg]
  rcases h with h | h | h
  · simp [h]
  · simp [h]
  · simp [h]

theorem doCopy_trim (a : Args K) (fs : FS) (s dest f t : Str) (hd : a.dryrun = false) (h0 : a.frac ≠ 0)
    (ht : Text fs (s ++ f) t) (h : keptLines a.frac t ≠ []) :
    doCopy a fs s dest f true = [(dest ++ f, .text (keptLines a.frac t).flatten)] := by
  obtain ⟨d, hg, rfl⟩ := ht
  unfold doCopy
  rw [hg]
  simp [hd, h0, h]

/-! ### the theorems about one run -/

/-- the part written before other files -/
def chainWrites (a : Args K) (fs : FS) (j : JobD) : List (Str × Content) :=
  if copiesChains a fs j then (chainNums fs j).flatMap (fun i => doCopy a fs j.chainPath j.relativePath (chainFile j.name i) (!j.isImp)) else []
def propWrites (a : Args K) (fs : FS) (j : JobD) : List (Str × Content) :=
  if writesProps a fs j && !a.dryrun then
    [(j.relativePath ++ propsName j, Content.text (IniFile.toText (IniFile.setParam j.props c!"burn_removed" (.bool true))))] else []
def infoWrites (a : Args K) (fs : FS) (j : JobD) : List (Str × Content) :=
  ((listdir fs j.chainPath).filter (fun f => fileMatches a.skips f j.name a.exts && !(writesProps a fs j && contains c!".properties.ini" f) &&
      fresh a fs (j.chainPath ++ f))).flatMap (fun f => doCopy a fs j.chainPath j.relativePath f false)
def distWrites (a : Args K) (fs : FS) (j : JobD) : List (Str × Content) :=
  if a.dist then
    ((listdir fs j.distPath).filter (fun f => fileMatches a.skips f j.name a.exts && fresh a fs (j.distPath ++ f))).flatMap
      (fun f => doCopy a fs j.distPath (j.relativePath ++ c!"dist/") f false) else []

theorem copyJob_eq (a : Args K) (fs : FS) (j : JobD) :
    copyJob a fs j = chainWrites a fs j ++ propWrites a fs j ++ infoWrites a fs j ++ distWrites a fs j := rfl

theorem dist_key (a : Args K) (fs : FS) (j : JobD) (f : Str) (hf : '/' ∉ f) :
    ∀ w ∈ distWrites a fs j, w.1 ≠ j.relativePath ++ f := by
  intro w hw e
  unfold distWrites at hw
  split at hw
  · obtain ⟨g, _, hw⟩ := List.mem_flatMap.mp hw
    have := doCopy_key _ _ _ _ _ _ w hw
    rw [e, List.append_assoc] at this
    have := List.append_cancel_left this
    exact hf (by rw [this]; simp)
  · simp at hw

theorem info_key (a : Args K) (fs : FS) (j : JobD) :
    ∀ w ∈ infoWrites a fs j, ∃ f ∈ listdir fs j.chainPath, fileMatches a.skips f j.name a.exts = true ∧
      (writesProps a fs j = true → contains c!".properties.ini" f = false) ∧ w ∈ doCopy a fs j.chainPath j.relativePath f false ∧ w.1 = j.relativePath ++ f := by
  intro w hw
  obtain ⟨f, hf, hw⟩ := List.mem_flatMap.mp hw
  rw [List.mem_filter] at hf
  obtain ⟨hf, hm⟩ := hf
  simp only [Bool.and_eq_true, Bool.not_eq_true', Bool.and_eq_false_iff] at hm
  refine ⟨f, hf, hm.1.1, fun h => ?_, hw, doCopy_key _ _ _ _ _ _ w hw⟩
  rcases hm.1.2 with h2 | h2
  · rw [h] at h2; cases h2
  · exact h2

/-- some pattern matches the file -/
theorem fileMatches_iff (skips : List Str) (f name : Str) (exts : List Str) :
    fileMatches skips f name exts = true ↔
      (∃ e ∈ exts, fnmatchcase f (name ++ e) = true) ∧ ∀ e ∈ skips, fnmatchcase f (name ++ e) = false := by
  induction exts with
  | nil => simp [fileMatches]
  | cons e es ih =>
    rw [fileMatches]
    split
    · rename_i h; simp [h]
    · rename_i h; rw [ih]; simp [h]

theorem chainFile_not_dot (name : Str) (i : Nat) (h : Plain name) : fnmatchcase (chainFile name i) (name ++ c!".*") = false := by
  rw [← Bool.not_eq_true, match_dot _ _ h]
  rintro ⟨u, hu⟩
  simp [chainFile] at hu

theorem slash_chainFile {name : Str} (i : Nat) (h : '/' ∉ name) : '/' ∉ chainFile name i := by
  simp [chainFile, h, strNat_no (i := i) (show '/'.isDigit = false by decide)]

theorem propsName_ne (j : JobD) (i : Nat) : propsName j ≠ chainFile j.name i := by
  simp [propsName, chainFile]

/-- the chains of a run are asked for -/
structure Asked (a : Args K) (fs : FS) (j : JobD) : Prop where
  real : a.dryrun = false
  chains : a.chains = true
  first : ∃ t, Text fs (j.chainPath ++ chainFile j.name 1) t ∧ t ≠ []
  age : a.maxAge = none
  noslash : '/' ∉ j.name

theorem asked_copies {a : Args K} {fs : FS} {j : JobD} (h : Asked a fs j) : copiesChains a fs j = true := by
  obtain ⟨t, ⟨d, hd, rfl⟩, ht⟩ := h.first
  simp [copiesChains, h.chains, chainExists, hd, fresh, h.age, ht]

/-- the files 1 .. i are there -/
def Upto (fs : FS) (j : JobD) (i : Nat) : Prop := 1 ≤ i ∧ ∀ m, 1 ≤ m → m ≤ i → There fs (j.chainPath ++ chainFile j.name m)

theorem chain_target (a : Args K) (fs : FS) (j : JobD) (h : Asked a fs j) (i : Nat) (hi : Upto fs j i) (c : Content)
    (hc : doCopy a fs j.chainPath j.relativePath (chainFile j.name i) (!j.isImp) = [(j.relativePath ++ chainFile j.name i, c)])
    (hx : ∀ e ∈ a.exts, fnmatchcase (chainFile j.name i) (j.name ++ e) = false) :
    (target (copyJob a fs j)).get? (j.relativePath ++ chainFile j.name i) = some c := by
  rw [copyJob_eq, target_left _ _ _ (dist_key _ _ _ _ (slash_chainFile _ h.noslash)), target_left, target_left]
  · apply target_all
    · intro w hw hk
      unfold chainWrites at hw
      rw [if_pos (asked_copies h)] at hw
      obtain ⟨m, _, hw⟩ := List.mem_flatMap.mp hw
      have := doCopy_key _ _ _ _ _ _ w hw
      rw [hk] at this
      have := chainFile_inj (List.append_cancel_left this)
      subst this
      rw [hc, List.mem_singleton] at hw
      subst hw; rfl
    · refine ⟨(j.relativePath ++ chainFile j.name i, c), ?_, rfl⟩
      unfold chainWrites
      rw [if_pos (asked_copies h)]
      exact List.mem_flatMap.mpr ⟨i, (chainNums_spec _ _ _).mpr hi, by rw [hc]; simp⟩
  · intro w hw e
    unfold propWrites at hw
    split at hw
    · rw [List.mem_singleton] at hw; subst hw
      exact propsName_ne j i (List.append_cancel_left e)
    · simp at hw
  · intro w hw e
    obtain ⟨f, _, hm, _, _, hk⟩ := info_key _ _ _ w hw
    rw [e] at hk
    have := List.append_cancel_left hk
    subst this
    obtain ⟨⟨x, hx1, hx2⟩, _⟩ := (fileMatches_iff _ _ _ _).mp hm
    rw [hx x hx1] at hx2; cases hx2

/-- **C50** With a burn-in fraction strictly between zero and one, each chain file of an original run that has any line is copied
without its first ⌊n f⌋ lines and the other lines unchanged, provided no file extension was asked for that matches the chain file. -/
theorem copy_chain_spec (a : Args K) (fs : FS) (j : JobD) (h : Asked a fs j) (himp : j.isImp = false) (h0 : 0 < a.frac) (h1 : a.frac < 1)
    (i : Nat) (hi : Upto fs j i) (hx : ∀ e ∈ a.exts, fnmatchcase (chainFile j.name i) (j.name ++ e) = false)
    (t : Str) (ht : Text fs (j.chainPath ++ chainFile j.name i) t) (hne : fileIter t ≠ []) :
    ∃ post, Tail a.frac (fileIter t) post ∧ (∀ q, Tail a.frac (fileIter t) q → q = post) ∧ post ≠ [] ∧
      (target (copyJob a fs j)).get? (j.relativePath ++ chainFile j.name i) = some (.text post.flatten) := by
  obtain ⟨hk, hn⟩ := kept_tail a.frac t h0.le h1 hne
  refine ⟨keptLines a.frac t, hk, fun q hq => tail_unique _ _ _ _ hq hk, hn, chain_target a fs j h i hi _ ?_ hx⟩
  rw [himp]
  exact doCopy_trim a fs _ _ _ t h.real (ne_of_gt h0) ht hn

/-- **C50** The default choice of extensions never touches the chain files. -/
theorem default_exts (name : Str) (i : Nat) (h : Plain name) :
    ∀ e ∈ ({} : Args ℚ).exts, fnmatchcase (chainFile name i) (name ++ e) = false := by
  intro e he
  simp at he; subst he
  exact chainFile_not_dot name i h

/-- **C50** Chains of importance sampled runs, and all chains when no fraction is given, are copied whole. -/
theorem copy_chain_whole (a : Args K) (fs : FS) (j : JobD) (h : Asked a fs j) (hs : a.symLink = false) (hz : j.isImp = true ∨ a.frac = 0)
    (i : Nat) (hi : Upto fs j i) (hx : ∀ e ∈ a.exts, fnmatchcase (chainFile j.name i) (j.name ++ e) = false)
    (t : Str) (ht : Text fs (j.chainPath ++ chainFile j.name i) t) :
    (target (copyJob a fs j)).get? (j.relativePath ++ chainFile j.name i) = some (.text t) := by
  refine chain_target a fs j h i hi _ (doCopy_plain a fs _ _ _ t _ h.real hs ht ?_) hx
  rcases hz with hz | hz
  · left; simp [hz]
  · exact .inr (.inl hz)

/-- **C50** Nothing is copied under a chain file's name after the first missing number (unless an extension matches it). -/
theorem copy_chain_gap (a : Args K) (fs : FS) (j : JobD) (hn : '/' ∉ j.name)
    (i : Nat) (hi : ¬ Upto fs j i) (hx : ∀ e ∈ a.exts, fnmatchcase (chainFile j.name i) (j.name ++ e) = false) :
    (target (copyJob a fs j)).get? (j.relativePath ++ chainFile j.name i) = none := by
  rw [copyJob_eq, target_left _ _ _ (dist_key _ _ _ _ (slash_chainFile _ hn)), target_left, target_left, target, get?_foldl_none]
  · rfl
  · intro w hw hk
    unfold chainWrites at hw
    split at hw
    · obtain ⟨m, hm, hw⟩ := List.mem_flatMap.mp hw
      have := doCopy_key _ _ _ _ _ _ w hw
      rw [hk] at this
      have := chainFile_inj (List.append_cancel_left this)
      subst this
      exact hi ((chainNums_spec _ _ _).mp hm)
    · simp at hw
  · intro w hw e
    unfold propWrites at hw
    split at hw
    · rw [List.mem_singleton] at hw; subst hw
      exact propsName_ne j i (List.append_cancel_left e)
    · simp at hw
  · intro w hw e
    obtain ⟨f, _, hm, _, _, hk⟩ := info_key _ _ _ w hw
    rw [e] at hk
    have := List.append_cancel_left hk
    subst this
    obtain ⟨⟨x, hx1, hx2⟩, _⟩ := (fileMatches_iff _ _ _ _).mp hm
    rw [hx x hx1] at hx2; cases hx2

theorem contains_append_right (sub p : Str) : contains sub (p ++ sub) = true := by
  induction p with
  | nil => cases sub with
    | nil => rfl
    | cons c cs => simp [contains]
  | cons c p ih => simp [contains, ih]

/-- **C50** The properties file of the copy then says that the burn-in was removed: reading it gives `burn_removed` true, and every other
setting as it was. -/
theorem copy_flag (a : Args K) (fs : FS) (j : JobD) (h : Asked a fs j) (himp : j.isImp = false) (h0 : a.frac ≠ 0)
    (hw : j.props.params.WF) (hk : ∀ e ∈ j.props.params, IniFile.KeyOK e.1 ∧ IniFile.ValOK (IniFile.asIniText e.2) ∧
      IniFile.NoRef true (IniFile.asIniText e.2)) (hinc : j.props.includes = [] ∧ j.props.defaults = []) :
    ∃ text, (target (copyJob a fs j)).get? (j.relativePath ++ propsName j) = some (.text text) ∧
      ∀ (files env : Str → Option Str) (limit : Nat) (file : Str), files file = some text →
        ∃ ini, IniFile.load files env (limit + 1) file = .ok ini ∧ IniFile.getBool ini c!"burn_removed" none = .ok true ∧
          ∀ k, k ≠ c!"burn_removed" → ini.params.get? k = (j.props.params.get? k).map (fun v => .str (IniFile.asIniText v)) := by
  have hps : '/' ∉ propsName j := by simp [propsName, h.noslash]
  have hwp : writesProps a fs j = true := by simp [writesProps, asked_copies h, himp, h0]
  refine ⟨IniFile.toText (IniFile.setParam j.props c!"burn_removed" (.bool true)), ?_, ?_⟩
  · rw [copyJob_eq, target_left _ _ _ (dist_key _ _ _ _ hps), target_left]
    · apply target_append
      · intro w hw hkw
        unfold propWrites at hw
        rw [hwp, h.real] at hw
        simp only [Bool.not_false, Bool.and_self, if_true, List.mem_singleton] at hw
        subst hw; rfl
      · refine ⟨(j.relativePath ++ propsName j, .text (IniFile.toText (IniFile.setParam j.props c!"burn_removed" (.bool true)))), ?_, rfl⟩
        unfold propWrites
        rw [hwp, h.real]
        simp only [Bool.not_false, Bool.and_self, if_true, List.mem_singleton]
    · intro w hw e
      obtain ⟨f, _, _, hp, _, hk⟩ := info_key _ _ _ w hw
      rw [e] at hk
      have := List.append_cancel_left hk
      subst this
      have := hp hwp
      rw [propsName, contains_append_right] at this; cases this
  · intro files env limit file hf
    have hmem : ∀ e ∈ (IniFile.setParam j.props c!"burn_removed" (.bool true)).params, IniFile.KeyOK e.1 ∧ IniFile.ValOK (IniFile.asIniText e.2) ∧
        IniFile.NoRef true (IniFile.asIniText e.2) := by
      intro e he
      obtain ⟨k, v⟩ := e
      have hg := Dict.get?_of_mem (Dict.WF_set c!"burn_removed" (.bool true) hw) he
      rw [Dict.get?_set] at hg
      split at hg
      · rename_i hke
        cases hg
        subst hke
        refine ⟨⟨by decide, ⟨by decide, by decide⟩, ⟨by decide, by decide⟩, by decide, by decide, by decide⟩, ?_, ?_⟩
        · exact ⟨⟨by decide, by decide⟩, ⟨by decide, by decide⟩⟩
        · right; decide
      · exact hk _ (Dict.mem_of_get? hg)
    obtain ⟨ini, hl, hp, _⟩ := IniFile.save_load_roundtrip (IniFile.setParam j.props c!"burn_removed" (.bool true))
      (Dict.WF_set _ _ hw) (fun e he => ⟨(hmem e he).1, (hmem e he).2.1⟩) true (fun e he => (hmem e he).2.2)
      (by intro f hf; simp [IniFile.setParam, hinc] at hf) false (.inr (by simp [IniFile.setParam, hinc])) files env limit file hf
    refine ⟨ini, hl, (IniFile.bool_roundtrip _ ini c!"burn_removed" true none (Dict.get?_set_self _ _ _) hp).2, ?_⟩
    intro k hk
    rw [hp k, IniFile.setParam, Dict.get?_set_of_ne _ _ hk]

/-- **C50** A trial run writes nothing. -/
theorem dryrun_nothing (a : Args K) (fs : FS) (j : JobD) (h : a.dryrun = true) : copyJob a fs j = [] := by
  have hd : ∀ s d f b, doCopy a fs s d f b = [] := by
    intro s d f b; unfold doCopy; split
    · rfl
    · simp [h]
  simp [copyJob, hd, h]

/-! ### where the claim fails -/

/-- the same, dropping everything: the lines kept are none -/
theorem kept_none (f : K) (text : Str) (h : 1 ≤ f) : keptLines f text = [] := by
  have hx : (0 : K) ≤ (fileIter text).length * f := mul_nonneg (Nat.cast_nonneg _) (by linarith)
  have h2 : ((fileIter text).length : Int) ≤ ⌊((fileIter text).length : K) * f⌋ := by
    rw [Int.le_floor]
    have : ((fileIter text).length : K) ≤ (fileIter text).length * f := le_mul_of_one_le_right (Nat.cast_nonneg _) h
    exact_mod_cast this
  simp only [keptLines, pyInt_nonneg _ hx, sliceFrom]
  rw [if_neg (by omega), List.drop_eq_nil_iff]
  omega

/-- **C50** Fails when everything should be removed: with a fraction of one or more, every chain file is copied whole (and the copy is
still flagged as having the burn-in removed, by `copy_flag`). -/
theorem copy_all_fails (a : Args K) (fs : FS) (j : JobD) (h : Asked a fs j) (hs : a.symLink = false) (h1 : 1 ≤ a.frac)
    (i : Nat) (hi : Upto fs j i) (hx : ∀ e ∈ a.exts, fnmatchcase (chainFile j.name i) (j.name ++ e) = false)
    (t : Str) (ht : Text fs (j.chainPath ++ chainFile j.name i) t) :
    (target (copyJob a fs j)).get? (j.relativePath ++ chainFile j.name i) = some (.text t) :=
  chain_target a fs j h i hi _ (doCopy_plain a fs _ _ _ t _ h.real hs ht (.inr (.inr (kept_none _ _ h1)))) hx

theorem mem_listdir (fs : FS) (dir f : Str) : f ∈ listdir fs dir ↔ There fs (dir ++ f) ∧ '/' ∉ f := by
  rw [there_iff, listdir, List.mem_map]
  constructor
  · rintro ⟨p, hp, rfl⟩
    rw [List.mem_filter] at hp
    simp only [Bool.and_eq_true, Bool.not_eq_true', startsWith, List.isPrefixOf_iff_prefix] at hp
    obtain ⟨hp, ⟨q, rfl⟩, hs⟩ := hp
    simp only [List.drop_left] at hs ⊢
    refine ⟨hp, fun hm => ?_⟩
    rw [List.contains_iff_mem.mpr hm] at hs; cases hs
  · rintro ⟨h1, h2⟩
    refine ⟨dir ++ f, List.mem_filter.mpr ⟨h1, ?_⟩, by simp⟩
    simp only [Bool.and_eq_true, Bool.not_eq_true', startsWith, List.isPrefixOf_iff_prefix, List.drop_left]
    exact ⟨⟨f, rfl⟩, by rw [← Bool.not_eq_true, List.contains_iff_mem]; exact h2⟩

/-- **C50** Fails when the extensions asked for also match the chain files (for example `*`): the whole chain file is copied over the
shortened one. -/
theorem copy_ext_fails (a : Args K) (fs : FS) (j : JobD) (h : Asked a fs j) (hs : a.symLink = false) (i : Nat)
    (hx : ∃ e ∈ a.exts, fnmatchcase (chainFile j.name i) (j.name ++ e) = true)
    (hskip : ∀ e ∈ a.skips, fnmatchcase (chainFile j.name i) (j.name ++ e) = false)
    (hp : contains c!".properties.ini" (chainFile j.name i) = false)
    (t : Str) (ht : Text fs (j.chainPath ++ chainFile j.name i) t) :
    (target (copyJob a fs j)).get? (j.relativePath ++ chainFile j.name i) = some (.text t) := by
  have hdo := doCopy_plain a fs j.chainPath j.relativePath (chainFile j.name i) t false h.real hs ht (.inl rfl)
  rw [copyJob_eq, target_left _ _ _ (dist_key _ _ _ _ (slash_chainFile _ h.noslash))]
  apply target_append
  · intro w hw hk
    obtain ⟨f, _, _, _, hw, hf⟩ := info_key _ _ _ w hw
    rw [hk] at hf
    have := List.append_cancel_left hf
    subst this
    rw [hdo, List.mem_singleton] at hw; subst hw; rfl
  · refine ⟨(j.relativePath ++ chainFile j.name i, .text t), ?_, rfl⟩
    refine List.mem_flatMap.mpr ⟨chainFile j.name i, List.mem_filter.mpr ⟨?_, ?_⟩, by rw [hdo]; simp⟩
    · exact (mem_listdir _ _ _).mpr ⟨text_there ht, slash_chainFile _ h.noslash⟩
    · rw [(fileMatches_iff _ _ _ _).mpr ⟨hx, hskip⟩, hp]
      simp [fresh, h.age]

/-- **C50** Fails for a run whose burn-in is already removed: the flag of the source is not looked at, so the same files are written for
any flag. -/
theorem copy_again_fails (a : Args K) (fs : FS) (j : JobD) (p : IniFile.Ini) : chainWrites a fs { j with props := p } = chainWrites a fs j := rfl

end

section Examples

def exJob : JobD := ⟨c!"base", c!"base/plik/", c!"/g/base/plik/", c!"/g/base/plik/dist/", false, {}⟩
def exFs : FS := [(c!"/g/base/plik/base_1.txt", ⟨c!"a\nb\nc\nd\n", 5⟩), (c!"/g/base/plik/base_2.txt", ⟨c!"e\nf\r\ng\n", 5⟩),
  (c!"/g/base/plik/base_4.txt", ⟨c!"z\n", 5⟩), (c!"/g/base/plik/base.paramnames", ⟨c!"p\n", 5⟩), (c!"/g/base/plik/base.chk", ⟨c!"k\n", 5⟩),
  (c!"/g/base/plik/base_post_lens_1.txt", ⟨c!"i\n", 5⟩), (c!"/g/base/plik/dist/base.margestats", ⟨c!"m\n", 5⟩)]

example : let d := target (copyJob { frac := (1/2 : ℚ), chains := true, dist := true } exFs exJob)
    d.keys = [c!"base/plik/base_1.txt", c!"base/plik/base_2.txt", c!"base/plik/base.properties.ini", c!"base/plik/base.paramnames",
      c!"base/plik/dist/base.margestats"] ∧
    d.get? c!"base/plik/base_1.txt" = some (.text c!"c\nd\n") ∧ d.get? c!"base/plik/base_2.txt" = some (.text c!"f\ng\n") ∧
    d.get? c!"base/plik/base.paramnames" = some (.text c!"p\n") := by decide +kernel
example : Asked { frac := (1/2 : ℚ), chains := true } exFs exJob :=
  ⟨rfl, rfl, ⟨c!"a\nb\nc\nd\n", ⟨⟨c!"a\nb\nc\nd\n", 5⟩, by decide, rfl⟩, by decide⟩, rfl, by decide⟩
example : Tail (1/2 : ℚ) [c!"a\n", c!"b\n", c!"c\n"] [c!"b\n", c!"c\n"] := ⟨[c!"a\n"], rfl, by norm_num, by norm_num⟩
example : chainNums exFs exJob = [1, 2] := by decide
/-- everything removed, yet nothing is; and with extension `*` the whole chain is copied over -/
example : (target (copyJob { frac := (1 : ℚ), chains := true } exFs exJob)).get? c!"base/plik/base_1.txt" = some (.text c!"a\nb\nc\nd\n") ∧
    (target (copyJob { frac := (1/2 : ℚ), chains := true, exts := [c!"*"] } exFs exJob)).get? c!"base/plik/base_1.txt" = some (.text c!"a\nb\nc\nd\n") ∧
    (target (copyJob { frac := (1/2 : ℚ), chains := true, exts := [c!"*"] } exFs exJob)).get? c!"base/plik/base_post_lens_1.txt" = some (.text c!"i\n") := by
  decide +kernel
/-- the burn-in removed twice -/
example : (target (copyJob { frac := (1/2 : ℚ), chains := true } [(c!"/g/base/plik/base_1.txt", ⟨c!"c\nd\n", 5⟩)]
    { exJob with props := { params := [(c!"burn_removed", .bool true)] } })).get? c!"base/plik/base_1.txt" = some (.text c!"d\n") := by
  decide +kernel

end Examples

/-! ## cleanup.py -/

/-- **C78** Without `--confirm` nothing is removed. -/
theorem clean_unconfirmed (fs : FS) (empty dist hasDist : Bool) (exts : List Str) (j : JobD) :
    cleanJob fs false empty dist hasDist exts j = [] := rfl

/-- **C78** Exactly the files directly in the searched directories are removed whose name is matched by the run name followed by one of
the patterns, with `--empty` only those without content. -/
theorem clean_spec (fs : FS) (empty dist hasDist : Bool) (exts : List Str) (j : JobD) (p : Str) :
    p ∈ cleanJob fs true empty dist hasDist exts j ↔
      ∃ dir f t, p = dir ++ f ∧ ((dir = j.chainPath ∧ dist = false) ∨ (dir = j.distPath ∧ hasDist = true)) ∧ Text fs p t ∧ '/' ∉ f ∧
        (∃ e ∈ exts, fnmatchcase f (j.name ++ e) = true) ∧ (empty = true → t = []) := by
  have hdir : ∀ dir, dir ∈ cleanDirs hasDist dist j ↔ (dir = j.chainPath ∧ dist = false) ∨ (dir = j.distPath ∧ hasDist = true) := by
    intro dir; cases hasDist <;> cases dist <;> simp [cleanDirs]
  unfold cleanJob
  simp only [Bool.not_true, Bool.false_eq_true, if_false, List.mem_flatMap, List.mem_map, List.mem_filter, Bool.and_eq_true, List.any_eq_true,
    Bool.or_eq_true, Bool.not_eq_true']
  constructor
  · rintro ⟨dir, hd, f, ⟨hf, hm, he⟩, rfl⟩
    obtain ⟨h1, h2⟩ := (mem_listdir _ _ _).mp hf
    obtain ⟨t, ht⟩ := there_text h1
    refine ⟨dir, f, t, rfl, (hdir _).mp hd, ht, h2, hm, fun hem => ?_⟩
    obtain ⟨d, hg, rfl⟩ := ht
    rw [hg] at he
    rcases he with he | he
    · rw [hem] at he; cases he
    · simpa using he
  · rintro ⟨dir, f, t, rfl, hd, ht, h2, hm, he⟩
    refine ⟨dir, (hdir _).mpr hd, f, ⟨(mem_listdir _ _ _).mpr ⟨text_there ht, h2⟩, hm, ?_⟩, rfl⟩
    obtain ⟨d, hg, rfl⟩ := ht
    rw [hg]
    cases empty
    · exact .inl rfl
    · right; simpa using he rfl

/-- **C78** With `--chainnum` and plain extensions, the files removed are those of that chain number of this very run. -/
theorem clean_chainnum (fs : FS) (empty dist hasDist : Bool) (n : Str) (ext : List Str) (j : JobD) (hj : Plain j.name) (hn : Plain n)
    (he : ∀ e ∈ ext, Plain e) (p : Str) (h : p ∈ cleanJob fs true empty dist hasDist (cleanExts (some n) ext) j) :
    ∃ e ∈ ext, p = j.chainPath ++ (j.name ++ c!"_" ++ n ++ c!"." ++ e) ∨ p = j.distPath ++ (j.name ++ c!"_" ++ n ++ c!"." ++ e) := by
  obtain ⟨dir, f, t, rfl, hd, _, _, ⟨x, hx, hm⟩, _⟩ := (clean_spec _ _ _ _ _ _ _).mp h
  obtain ⟨e, hee, rfl⟩ := List.mem_map.mp hx
  have hpl : Plain (j.name ++ (c!"_" ++ n ++ c!"." ++ e)) :=
    plain_append hj (plain_append (plain_append (plain_append (by decide) hn) (by decide)) (he e hee))
  rw [fnmatchcase_iff _ _ (plain_no_bracket hpl)] at hm
  have hm2 := (glob_plain _ [] f hpl).mp (by simpa using hm)
  obtain ⟨u, hu, hg⟩ := hm2
  have := (glob_nil u).mp hg; subst this
  refine ⟨e, hee, ?_⟩
  rcases hd with ⟨rfl, _⟩ | ⟨rfl, _⟩
  · left; rw [hu]; simp
  · right; rw [hu]; simp

/-- **C78** By default a file is only removed if its name is that of the run, continued by a dot or an underscore. -/
theorem clean_default (fs : FS) (empty dist hasDist : Bool) (j : JobD) (hj : Plain j.name) (p : Str)
    (h : p ∈ cleanJob fs true empty dist hasDist (cleanExts none [c!"*"]) j) :
    ∃ f u, (p = j.chainPath ++ f ∨ p = j.distPath ++ f) ∧ (f = j.name ++ c!"." ++ u ∨ ∃ v, f = j.name ++ c!"_" ++ v ++ c!"." ++ u) := by
  obtain ⟨dir, f, t, rfl, hd, _, _, ⟨x, hx, hm⟩, _⟩ := (clean_spec _ _ _ _ _ _ _).mp h
  have hdd : dir ++ f = j.chainPath ++ f ∨ dir ++ f = j.distPath ++ f := by
    rcases hd with ⟨rfl, _⟩ | ⟨rfl, _⟩
    · exact .inl rfl
    · exact .inr rfl
  simp [cleanExts] at hx
  rcases hx with rfl | rfl
  · obtain ⟨u, rfl⟩ := (match_dot j.name f hj).mp hm
    exact ⟨_, u, hdd, .inl rfl⟩
  · have hpl : Plain (j.name ++ c!"_") := plain_append hj (by decide)
    have e : j.name ++ c!"_*.*" = (j.name ++ c!"_") ++ '*' :: (c!"." ++ c!"*") := by simp
    have hm : fnmatchcase f (j.name ++ c!"_*.*") = true := hm
    rw [fnmatchcase_iff _ _ (by simp [plain_no_bracket hj]), e, glob_plain _ _ _ hpl] at hm
    obtain ⟨s, rfl, hs⟩ := hm
    obtain ⟨v, s2, rfl, hs2⟩ := (glob_star _ _).mp hs
    obtain ⟨s3, rfl, _⟩ := (glob_plain c!"." _ _ (by decide)).mp hs2
    exact ⟨_, s3, hdd, .inr ⟨v, by simp⟩⟩

/-- **C78** Fails for runs with importance sampled versions: every chain of `name_post_tag` in the same directory is removed with the run. -/
theorem clean_importance_fails (fs : FS) (dist : Bool) (j : JobD) (hj : Plain j.name) (hs : '/' ∉ j.name) (tag : Str) (ht : '/' ∉ tag) (i : Nat)
    (hin : There fs (j.chainPath ++ chainFile (j.name ++ c!"_post_" ++ tag) i)) :
    j.chainPath ++ chainFile (j.name ++ c!"_post_" ++ tag) i ∈ cleanJob fs true false false dist (cleanExts none [c!"*"]) j := by
  obtain ⟨t, htx⟩ := there_text hin
  refine (clean_spec _ _ _ _ _ _ _).mpr ⟨j.chainPath, _, t, rfl, .inl ⟨rfl, rfl⟩, htx, slash_chainFile _ ?_, ⟨c!"_*.*", by simp [cleanExts], ?_⟩, by simp⟩
  · simp [hs, ht]
  · have hpl : Plain (j.name ++ c!"_") := plain_append hj (by decide)
    have e : j.name ++ c!"_*.*" = (j.name ++ c!"_") ++ '*' :: (c!"." ++ c!"*") := by simp
    rw [fnmatchcase_iff _ _ (by simp [plain_no_bracket hj]), e, glob_plain _ _ _ hpl]
    refine ⟨c!"post_" ++ tag ++ c!"_" ++ strNat i ++ (c!"." ++ c!"txt"), by simp [chainFile], ?_⟩
    refine (glob_star _ _).mpr ⟨_, _, rfl, (glob_plain _ _ _ (by decide)).mpr ⟨c!"txt", rfl, ?_⟩⟩
    exact (glob_star _ _).mpr ⟨c!"txt", [], by simp, .nil⟩

example : cleanJob exFs true false false false (cleanExts none [c!"*"]) exJob =
    [c!"/g/base/plik/base_1.txt", c!"/g/base/plik/base_2.txt", c!"/g/base/plik/base_4.txt", c!"/g/base/plik/base.paramnames",
     c!"/g/base/plik/base.chk", c!"/g/base/plik/base_post_lens_1.txt"] := by decide +kernel
example : cleanJob exFs true false false true (cleanExts (some c!"2") [c!"txt"]) exJob = [c!"/g/base/plik/base_2.txt"] := by decide +kernel
example : Plain c!"base_plikHM_TTTEEE" := by decide

end Verif.GridFiles
