import Verif.Model.Batch
import Verif.Lemmas.IniFile2
import Verif.Props.JobIndex
import Mathlib.Data.List.Perm.Basic

/-!
# Data tags and finding runs by name (C33, C36)
-/

namespace Verif.Batch
open Verif.Py Verif.IniFile Verif.JobQueue

/-! ## Sorting -/

theorem strLe_antisymm : ∀ {a b : Str}, strLe a b = true → strLe b a = true → a = b
  | [], [], _, _ => rfl
  | [], _ :: _, _, h => by simp [strLe] at h
  | _ :: _, [], h, _ => by simp [strLe] at h
  | x :: a, y :: b, h1, h2 => by
    unfold strLe at h1 h2
    by_cases hl : x.toNat < y.toNat
    · rw [if_neg (Nat.lt_asymm hl), if_pos hl] at h2; cases h2
    · rw [if_neg hl] at h1 h2
      by_cases hg : y.toNat < x.toNat
      · rw [if_pos hg] at h1; cases h1
      · rw [if_neg hg] at h1 h2
        have : x = y := Char.toNat_inj.mp (Nat.le_antisymm (Nat.not_lt.mp hg) (Nat.not_lt.mp hl))
        rw [this, strLe_antisymm h1 h2]

theorem sorted_eq_of_perm {l l' : List Str} (h : l.Perm l') : sorted l = sorted l' :=
  List.Perm.eq_of_pairwise (fun _ _ _ _ h1 h2 => strLe_antisymm h1 h2) (sortStr_sorted l) (sortStr_sorted l')
    ((sortStr_perm l).trans (h.trans (sortStr_perm l').symm))

theorem perm_of_sorted_eq {l l' : List Str} (h : sorted l = sorted l') : l.Perm l' :=
  (sortStr_perm l).symm.trans ((show sortStr l = sortStr l' from h) ▸ sortStr_perm l')

theorem sorted_ne_nil {l : List Str} (h : l ≠ []) : sorted l ≠ [] := by
  intro e
  have := (sortStr_perm l).length_eq
  rw [show sortStr l = [] from e] at this
  exact h (List.length_eq_zero_iff.mp this.symm)

/-! ## Joining and splitting -/

theorem join_flat : ∀ (n : Str) (l : List Str), join us (n :: l) = n ++ l.flatMap (fun x => '_' :: x)
  | n, [] => by simp [join]
  | n, m :: l => by
    rw [join_cons2, join_flat m l]; simp [us]

theorem splitChar_append_gen {ch : Char} : ∀ (a b : Str), splitChar ch (a ++ ch :: b) = splitChar ch a ++ splitChar ch b
  | [], b => by simp [splitChar]
  | c :: a, b => by
    rw [List.cons_append, splitChar, splitChar, splitChar_append_gen a b]
    by_cases hc : c == ch
    · simp [hc]
    · simp only [hc, Bool.false_eq_true, if_false]
      cases hs : splitChar ch a with
      | nil => cases a <;> simp [splitChar] at hs; split at hs <;> try split at hs
               all_goals simp at hs
      | cons t ts => rfl

theorem splitChar_join : ∀ {l : List Str}, l ≠ [] → (∀ n ∈ l, '_' ∉ n) → splitChar '_' (join us l) = l
  | [], h, _ => absurd rfl h
  | [n], _, h => by rw [join]; exact splitChar_none (h n List.mem_cons_self)
  | n :: m :: l, _, h => by
    rw [join_cons2, us, List.append_assoc, List.singleton_append, splitChar_append (h n List.mem_cons_self)]
    rw [show (['_'] : Str) = us from rfl, splitChar_join (by simp) (fun x hx => h x (List.mem_cons_of_mem _ hx))]

theorem join_inj {l l' : List Str} (hl : l ≠ []) (hl' : l' ≠ []) (h : ∀ n ∈ l, '_' ∉ n) (h' : ∀ n ∈ l', '_' ∉ n)
    (e : join us l = join us l') : l = l' := by
  rw [← splitChar_join hl h, ← splitChar_join hl' h', e]

theorem join_append {l m : List Str} (hl : l ≠ []) (hm : m ≠ []) : join us (l ++ m) = join us l ++ us ++ join us m := by
  obtain ⟨a, l, rfl⟩ := List.exists_cons_of_ne_nil hl
  obtain ⟨b, m, rfl⟩ := List.exists_cons_of_ne_nil hm
  rw [List.cons_append, join_flat, join_flat, join_flat]
  simp [us]

/-! ## C33 -/

/-- **C33**: the normalised data tag and the normalised run name do not depend on the order in which data sets and parameters were
listed — also when names are replaced by a mapping -/
theorem normed_perm (base : Str) {ps ps' : List Str} {d d' : DS} (dic : Option (Dict Str Str)) (hp : ps.Perm ps')
    (hd : d.names.Perm d'.names) :
    d.normedTag dic = d'.normedTag dic ∧ normedNameOf base ps d dic = normedNameOf base ps' d' dic := by
  have h1 : d.normedTag dic = d'.normedTag dic := by
    unfold DS.normedTag DS.namesReplacing
    cases dic with
    | none => simp only []; rw [sorted_eq_of_perm hd]
    | some m => simp only []; rw [sorted_eq_of_perm (hd.flatMap_right _)]
  refine ⟨h1, ?_⟩
  unfold normedNameOf
  rw [h1, sorted_eq_of_perm hp]

/-- **C33**: different data combinations have different normalised tags, as long as no name contains the separator -/
theorem normedTag_inj {d d' : DS} (h : ∀ n ∈ d.names, '_' ∉ n) (h' : ∀ n ∈ d'.names, '_' ∉ n) (hn : d.names ≠ [])
    (hn' : d'.names ≠ []) (e : d.normedTag none = d'.normedTag none) : d.names.Perm d'.names := by
  unfold DS.normedTag DS.namesReplacing at e
  refine perm_of_sorted_eq (join_inj (sorted_ne_nil hn) (sorted_ne_nil hn') ?_ ?_ e)
  · intro n hm; exact h n ((sortStr_perm _).mem_iff.mp hm)
  · intro n hm; exact h' n ((sortStr_perm _).mem_iff.mp hm)

example : (mkData [c!"b", c!"a"] none).normedTag none = c!"a_b" ∧ (mkData [c!"a", c!"b"] none).normedTag none = c!"a_b" ∧
    (mkData [c!"a", c!"a"] none).normedTag none ≠ c!"a_b" := by decide +kernel

/-- names containing the separator are confused: two different combinations with the same tag -/
theorem normedTag_inj_fails : ∃ d d' : DS, d = mkData [c!"a_b"] none ∧ d' = mkData [c!"a", c!"b"] none ∧
    d.normedTag none = d'.normedTag none ∧ ¬ d.names.Perm d'.names :=
  ⟨_, _, rfl, rfl, by decide +kernel, by intro h; have := h.length_eq; revert this; decide⟩

/-- the run name up to order, as a list of components -/
theorem normedNameOf_eq (base : Str) (ps : List Str) (d : DS) (hps : ∀ p ∈ ps, p ≠ []) (hd : d.names ≠ []) :
    normedNameOf base ps d none = join us (base :: sorted ps ++ sorted d.names) := by
  unfold normedNameOf DS.normedTag DS.namesReplacing
  simp only []
  rw [join_append (by simp) (sorted_ne_nil hd)]
  congr 2
  cases hs : sorted ps with
  | nil => simp [join]
  | cons p l =>
    have hp : p ≠ [] := hps p ((sortStr_perm _).mem_iff.mp (by rw [show sortStr ps = _ from hs]; simp))
    rw [if_pos, join_cons2]
    · simp
    · rw [join_flat]
      have := List.length_pos_iff.mpr hp
      simp only [List.length_append]; omega

/-- **C33**: two runs of the same base model with the same normalised name vary the same parameters and use the same data, if names
have no separator and no name is used both for a parameter and for a data set -/
theorem normedName_inj {base : Str} {ps ps' : List Str} {d d' : DS} (hb : '_' ∉ base)
    (hs : ∀ n ∈ ps ++ ps' ++ d.names ++ d'.names, '_' ∉ n ∧ n ≠ [])
    (hdis : ∀ n ∈ ps ++ ps', n ∉ d.names ++ d'.names) (hn : d.names ≠ []) (hn' : d'.names ≠ [])
    (e : normedNameOf base ps d none = normedNameOf base ps' d' none) : ps.Perm ps' ∧ d.names.Perm d'.names := by
  rw [normedNameOf_eq base ps d (fun p hp => (hs p (by simp [hp])).2) hn,
    normedNameOf_eq base ps' d' (fun p hp => (hs p (by simp [hp])).2) hn'] at e
  have hmem : ∀ (l : List Str) {n : Str}, n ∈ sorted l → n ∈ l := fun l n h => (sortStr_perm l).mem_iff.mp h
  have e2 := join_inj (by simp) (by simp) (by
    intro n h
    rcases List.mem_append.mp h with h | h
    · rcases List.mem_cons.mp h with rfl | h
      · exact hb
      · exact (hs n (by simp [hmem _ h])).1
    · exact (hs n (by simp [hmem _ h])).1) (by
    intro n h
    rcases List.mem_append.mp h with h | h
    · rcases List.mem_cons.mp h with rfl | h
      · exact hb
      · exact (hs n (by simp [hmem _ h])).1
    · exact (hs n (by simp [hmem _ h])).1) e
  rw [List.cons_append, List.cons_append, List.cons.injEq] at e2
  have e3 := e2.2
  have hf : ∀ (a : List Str) (b : List Str), (∀ x ∈ a, x ∈ ps ++ ps') → (∀ x ∈ b, x ∈ d.names ++ d'.names) →
      (a ++ b).filter (fun x => decide (x ∈ ps ++ ps')) = a ∧ (a ++ b).filter (fun x => !decide (x ∈ ps ++ ps')) = b := by
    intro a b ha hb
    rw [List.filter_append, List.filter_append]
    constructor
    · rw [List.filter_eq_self.mpr (fun x hx => decide_eq_true (ha x hx)),
        List.filter_eq_nil_iff.mpr (fun x hx => by
          have := hb x hx
          simp only [decide_eq_true_eq]
          exact fun h => hdis x h this), List.append_nil]
    · rw [List.filter_eq_nil_iff.mpr (fun x hx => by simp only [decide_eq_true (ha x hx)]; decide),
        List.filter_eq_self.mpr (fun x hx => by
          have := hb x hx
          simp only [Bool.not_eq_true', decide_eq_false_iff_not]
          exact fun h => hdis x h this), List.nil_append]
  have h1 := hf (sorted ps) (sorted d.names) (fun x hx => by simp [hmem _ hx]) (fun x hx => by simp [hmem _ hx])
  have h2 := hf (sorted ps') (sorted d'.names) (fun x hx => by simp [hmem _ hx]) (fun x hx => by simp [hmem _ hx])
  rw [e3] at h1
  exact ⟨perm_of_sorted_eq (h1.1.symm.trans h2.1), perm_of_sorted_eq (h1.2.symm.trans h2.2)⟩

example : normedNameOf c!"base" [c!"w", c!"omegak"] (mkData [c!"plik", c!"BAO"] none) none = c!"base_omegak_w_BAO_plik" := by
  decide +kernel

/-- without that condition, two runs with different parameters and data have the same name, the same normalised name and therefore
the same ini file -/
theorem name_collision_fails : ∃ i j : Info, i = mkItem c!"/g/" [c!"x", c!"y"] (mkData [c!"z"] none) c!"base" ∧
    j = mkItem c!"/g/" [c!"x"] (mkData [c!"y", c!"z"] none) c!"base" ∧ i.params ≠ j.params ∧ i.name = j.name ∧
    i.normedName = j.normedName ∧ i.iniFile [] = j.iniFile [] ∧ i.chainRoot ≠ j.chainRoot :=
  ⟨_, _, rfl, rfl, by decide +kernel, by decide +kernel, by decide +kernel, by decide +kernel, by decide +kernel⟩

/-! ## The `_post` mark of importance runs -/

def P : Str := c!"_post"

/-- a name that does not disturb the tags -/
def Good (n : Str) : Prop := '_' ∉ n ∧ startsWith c!"post" n = false

instance (n : Str) : Decidable (Good n) := by unfold Good; infer_instance

theorem rep_name {n : Str} (h : '_' ∉ n) (t : Str) : replaceStr P [] (n ++ t) = n ++ replaceStr P [] t := by
  apply replaceStr_append
  intro a1 a2 e hne
  cases a2 with
  | nil => exact absurd rfl hne
  | cons c a2 =>
    rw [Bool.eq_false_iff]
    intro hs
    obtain ⟨r, hr⟩ := Py.startsWith_iff.mp hs
    rw [show P ++ r = '_' :: (c!"post" ++ r) from rfl, List.cons_append, List.cons.injEq] at hr
    apply h
    rw [e, hr.1]; simp

/-- what may follow a name in a tag -/
def Bnd (t : Str) : Prop := t = [] ∨ ∃ r, t = '_' :: r

theorem rep_sep {n t : Str} (h : Good n) (ht : Bnd t) :
    replaceStr P [] ('_' :: (n ++ t)) = '_' :: (n ++ replaceStr P [] t) := by
  rw [replaceStr_step, rep_name h.1]
  rw [Bool.eq_false_iff]
  intro hs
  obtain ⟨r, hr⟩ := Py.startsWith_iff.mp hs
  have hr' : n ++ t = c!"post" ++ r := by
    rw [show P ++ r = '_' :: (c!"post" ++ r) from rfl, List.cons.injEq] at hr
    exact hr.2
  rcases List.append_eq_append_iff.mp hr' with ⟨a, ha, hb⟩ | ⟨a, ha, hb⟩
  · cases a with
    | nil =>
      have : startsWith c!"post" n = true := Py.startsWith_iff.mpr ⟨[], by simpa using ha.symm⟩
      rw [h.2] at this; cases this
    | cons c a =>
      rcases ht with rfl | ⟨q, rfl⟩
      · simp at hb
      · rw [List.cons_append, List.cons.injEq] at hb
        have : '_' ∈ c!"post" := by rw [ha, hb.1]; simp
        revert this; decide
  · have : startsWith c!"post" n = true := Py.startsWith_iff.mpr ⟨a, ha⟩
    rw [h.2] at this; cases this

theorem rep_flat : ∀ {l : List Str} {t : Str}, (∀ n ∈ l, Good n) → Bnd t →
    replaceStr P [] (l.flatMap (fun x => '_' :: x) ++ t) = l.flatMap (fun x => '_' :: x) ++ replaceStr P [] t
  | [], t, _, _ => rfl
  | n :: l, t, h, ht => by
    have hb : Bnd (l.flatMap (fun x => '_' :: x) ++ t) := by
      cases l with
      | nil => simpa using ht
      | cons m l => exact .inr ⟨_, rfl⟩
    rw [List.flatMap_cons, List.append_assoc, List.cons_append, rep_sep (h n List.mem_cons_self) hb,
      rep_flat (fun x hx => h x (List.mem_cons_of_mem _ hx)) ht]
    simp

theorem rep_join {l : List Str} {t : Str} (h : ∀ n ∈ l, Good n) (ht : Bnd t) :
    replaceStr P [] (join us l ++ t) = join us l ++ replaceStr P [] t := by
  cases l with
  | nil => rfl
  | cons n l =>
    rw [join_flat, List.append_assoc, rep_name (h n List.mem_cons_self).1,
      rep_flat (fun x hx => h x (List.mem_cons_of_mem _ hx)) ht, List.append_assoc]

/-- a tag listing the names `ns`: the names joined, or split in two groups by `_post_` -/
def TagOf (ns : List Str) (t : Str) : Prop :=
  t = join us ns ∨ ∃ l m, l ≠ [] ∧ m ≠ [] ∧ ns = l ++ m ∧ t = join us l ++ c!"_post_" ++ join us m

theorem strip_post {ns : List Str} {t : Str} (h : ∀ n ∈ ns, Good n) (ht : TagOf ns t) :
    replaceStr P [] t = join us ns := by
  rcases ht with rfl | ⟨l, m, hl, hm, rfl, rfl⟩
  · have := rep_join (t := []) h (.inl rfl)
    simpa [replaceStr_nil] using this
  · have h1 : ∀ n ∈ l, Good n := fun n hn => h n (by simp [hn])
    have h2 : ∀ n ∈ m, Good n := fun n hn => h n (by simp [hn])
    obtain ⟨b, m, rfl⟩ := List.exists_cons_of_ne_nil hm
    rw [List.append_assoc, rep_join (t := c!"_post_" ++ join us (b :: m)) h1 (.inr ⟨c!"post_" ++ join us (b :: m), rfl⟩),
      join_append hl (by simp)]
    rw [show c!"_post_" ++ join us (b :: m) = P ++ ('_' :: (b ++ m.flatMap (fun x => '_' :: x)) : Str) by
      rw [join_flat]; rfl]
    rw [replaceStr_match _ _ (by decide)]
    have hb : Bnd (m.flatMap (fun x => '_' :: x)) := by
      cases m with
      | nil => exact .inl rfl
      | cons c m => exact .inr ⟨_, rfl⟩
    rw [rep_sep (h2 b List.mem_cons_self) hb]
    have := rep_flat (l := m) (t := []) (fun x hx => h2 x (List.mem_cons_of_mem _ hx)) (.inl rfl)
    rw [List.append_nil, replaceStr_nil, List.append_nil] at this
    rw [this, join_flat]
    simp [us]

/-- **C33/C36**: the tag of a data combination, with or without the `_post` mark and in any order, is normalised to the sorted names -/
theorem normalizeDataTag_eq {ns : List Str} {t : Str} (h : ∀ n ∈ ns, Good n) (hn : ns ≠ []) (ht : TagOf ns t) :
    normalizeDataTag t = join us (sorted ns) := by
  unfold normalizeDataTag
  rw [show c!"_post" = P from rfl, strip_post h ht, splitChar_join hn (fun n hm => (h n hm).1)]

example : normalizeDataTag c!"plik_BAO_post_lensing" = c!"BAO_lensing_plik" := by decide +kernel

/-- names with a separator, or beginning with `post`, are not normalised to the tag the run was given -/
theorem normalizeDataTag_fails : (∃ d, d = mkData [c!"a_c", c!"b"] none ∧ normalizeDataTag d.tag ≠ d.normedTag none) ∧
    ∃ d, d = mkData [c!"a", c!"postlens"] none ∧ normalizeDataTag d.tag ≠ d.normedTag none :=
  ⟨⟨_, rfl, by decide +kernel⟩, _, rfl, by decide +kernel⟩

/-! ## Matching data tags -/

/-- **C33**: a run matches a list of tags that contains its normalised tag, its tag, or its tag with the `_post` mark elsewhere -/
theorem matches_of_mem (j : Info) (l : List Str) (h : j.normedData ∈ l ∨ j.datatag ∈ l ∨
    ∃ t ∈ l, replaceStr c!"_post" [] t = replaceStr c!"_post" [] j.datatag) : j.matchesDatatag l = true := by
  unfold Info.matchesDatatag
  simp only [Bool.or_eq_true, List.contains_iff_mem, List.mem_map]
  rcases h with h | h | ⟨t, h1, h2⟩
  · exact .inl (.inr h)
  · exact .inl (.inl h)
  · exact .inr ⟨t, h1, h2⟩

/-- **C33**: a run only matches tags of its own data combination -/
theorem matches_sound (j : Info) (ls : List (List Str × Str)) (hg : ∀ n ∈ j.data.names, Good n) (hne : j.data.names ≠ [])
    (hls : ∀ p ∈ ls, p.1 ≠ [] ∧ (∀ n ∈ p.1, Good n) ∧ TagOf p.1 p.2) (hj : TagOf j.data.names j.datatag)
    (hd : j.normedData = j.data.normedTag none) (h : j.matchesDatatag (ls.map (·.2)) = true) :
    ∃ p ∈ ls, p.1.Perm j.data.names := by
  have key : ∀ p ∈ ls, replaceStr P [] p.2 = join us (sorted j.data.names) ∨
      replaceStr P [] p.2 = join us j.data.names → p.1.Perm j.data.names := by
    intro p hp h
    obtain ⟨h1, h2, h3⟩ := hls p hp
    rw [strip_post h2 h3] at h
    rcases h with h | h
    · rw [join_inj h1 (sorted_ne_nil hne) (fun n hn => (h2 n hn).1)
        (fun n hn => (hg n ((sortStr_perm _).mem_iff.mp hn)).1) h]
      exact sortStr_perm _
    · rw [join_inj h1 hne (fun n hn => (h2 n hn).1) (fun n hn => (hg n hn).1) h]
  unfold Info.matchesDatatag at h
  simp only [Bool.or_eq_true, List.contains_iff_mem, List.mem_map] at h
  rcases h with (⟨p, hp, e⟩ | ⟨p, hp, e⟩) | ⟨t, ⟨p, hp, rfl⟩, e⟩
  · exact ⟨p, hp, key p hp (.inr (by rw [e, strip_post hg hj]))⟩
  · refine ⟨p, hp, key p hp (.inl ?_)⟩
    rw [e, hd]
    unfold DS.normedTag DS.namesReplacing
    refine strip_post (ns := sorted j.data.names) ?_ (.inl rfl)
    exact fun n hn => hg n ((sortStr_perm _).mem_iff.mp hn)
  · refine ⟨p, hp, key p hp (.inr ?_)⟩
    rw [show P = c!"_post" from rfl, e, ← show P = c!"_post" from rfl, strip_post hg hj]

/-- a run is not matched by the tag of the same data in another order (unless that order is the sorted one) -/
theorem matches_order_fails : ∃ j : Info, j = mkItem c!"/g/" [] (mkData [c!"a", c!"b"] none) c!"base" ∧
    j.matchesDatatag [(mkData [c!"b", c!"a"] none).tag] = false ∧
    (mkItem c!"/g/" [] (mkData [c!"b", c!"a"] none) c!"base").matchesDatatag [j.datatag] = true :=
  ⟨_, rfl, by decide +kernel, by decide +kernel⟩

/-! ## Tags of the jobs of a grid -/

/-- what the tags of a job say about it -/
structure Proper (j : Info) : Prop where
  tag : TagOf j.data.names j.datatag
  nd : j.normedData = j.data.normedTag none
  nn : j.normedName = normedNameOf j.base j.params j.data none

theorem mkItem_proper (path : Str) (ps : List Str) (names : List Str) (pr : Option (List PItem)) (base : Str) :
    Proper (mkItem path ps (mkData names pr) base) := ⟨.inl rfl, rfl, rfl⟩

theorem post_of_contains {s : Str} (h : contains c!"_post_" s = true) : c!"post" ∈ splitChar '_' s := by
  obtain ⟨a, b, rfl⟩ := contains_iff.mp h
  rw [show a ++ c!"_post_" ++ b = a ++ '_' :: (c!"post" ++ '_' :: b) by simp]
  rw [splitChar_append_gen, splitChar_append (by decide)]
  simp

theorem not_contains_join {l : List Str} (h : ∀ n ∈ l, Good n) : contains c!"_post_" (join us l) = false := by
  rw [Bool.eq_false_iff]
  intro hc
  cases l with
  | nil => revert hc; decide
  | cons n l =>
    have := post_of_contains hc
    rw [splitChar_join (by simp) (fun n hn => (h n hn).1)] at this
    have h2 := (h _ this).2
    revert h2; decide

/-- a job together with its name: the base model, the parameters, and the tag -/
structure Named (j : Info) : Prop extends Proper j where
  good : ∀ n ∈ j.base :: (j.params ++ j.data.names), Good n
  name : ∃ pre : List Str, pre ≠ [] ∧ (∀ n ∈ pre, Good n) ∧ j.name = join us pre ++ us ++ j.datatag

theorem mkItem_named (path : Str) (ps names : List Str) (pr : Option (List PItem)) (base : Str)
    (h : ∀ n ∈ base :: (ps ++ names), Good n) : Named (mkItem path ps (mkData names pr) base) where
  toProper := mkItem_proper path ps names pr base
  good := h
  name := ⟨base :: ps, by simp, fun n hn => h n (by
    rcases List.mem_cons.mp hn with rfl | hn
    · simp
    · simp [hn]), rfl⟩

/-- **C33/C36**: importance runs of a run (to any depth) have tags that list exactly their data, with one `_post_` mark -/
theorem impInfo_named {i : Info} (h : Named i) (hne : i.data.names ≠ []) (r : ImpRun) (hr : r.names ≠ [])
    (hg : ∀ n ∈ r.names, Good n) : Named (impInfo i r) ∧ (impInfo i r).data.names = i.data.names ++ r.names ∧
    contains c!"_post_" (impInfo i r).name = true := by
  have hdn : (impInfo i r).data.names = i.data.names ++ r.names := rfl
  have hgd : ∀ n ∈ i.data.names, Good n := fun n hn => h.good n (by simp [hn])
  obtain ⟨pre, hp1, hp2, hp3⟩ := h.name
  have hdt : (impInfo i r).datatag = i.datatag ++ ((if contains c!"_post_" i.name then us else c!"_post_") ++ join us r.names) := rfl
  have hname : (impInfo i r).name = i.name ++ ((if contains c!"_post_" i.name then us else c!"_post_") ++ join us r.names) := rfl
  have htag : TagOf (i.data.names ++ r.names) (impInfo i r).datatag := by
    rw [hdt]
    rcases h.tag with ht | ⟨l, m, hl, hm, hlm, ht⟩
    · have hc : contains c!"_post_" i.name = false := by
        rw [hp3, ht, ← join_append hp1 hne]
        exact not_contains_join (fun n hn => by
          rcases List.mem_append.mp hn with hn | hn
          · exact hp2 n hn
          · exact hgd n hn)
      rw [hc]
      exact .inr ⟨i.data.names, r.names, hne, hr, rfl, by rw [ht]; simp⟩
    · have hc : contains c!"_post_" i.name = true := by
        rw [hp3, ht]
        exact contains_iff.mpr ⟨join us pre ++ us ++ join us l, join us m, by simp⟩
      rw [hc]
      refine .inr ⟨l, m ++ r.names, hl, by simp [hm], by rw [hlm, List.append_assoc], ?_⟩
      rw [join_append hm hr, ht]; simp
  refine ⟨⟨⟨htag, rfl, rfl⟩, ?_, ⟨pre, hp1, hp2, ?_⟩⟩, hdn, ?_⟩
  · intro n hn
    rcases List.mem_cons.mp hn with rfl | hn
    · rw [show (impInfo i r).base = c!"base" from rfl]; decide
    · rw [hdn] at hn
      rcases List.mem_append.mp hn with hn | hn
      · exact h.good n (by simp [show n ∈ i.params from hn])
      · rcases List.mem_append.mp hn with hn | hn
        · exact hgd n hn
        · exact hg n hn
  · rw [hname, hdt, hp3]; simp
  · rw [hname]
    cases hc : contains c!"_post_" i.name with
    | true =>
      obtain ⟨a, b, e⟩ := contains_iff.mp hc
      exact contains_iff.mpr ⟨a, b ++ (us ++ join us r.names), by rw [e]; simp⟩
    | false => exact contains_iff.mpr ⟨i.name, join us r.names, by simp⟩

example : (impInfo (impInfo (mkItem c!"/g/" [c!"w"] (mkData [c!"plik", c!"BAO"] none) c!"base") ⟨[c!"lens"], [], fun _ => true⟩)
    ⟨[c!"z1", c!"JLA"], [], fun _ => true⟩).name = c!"base_w_plik_BAO_post_lens_z1_JLA" := by decide +kernel

/-- the importance runs of a run of another base model lose the base name in their normalised name -/
theorem impInfo_base_fails : ∃ i r, i = mkItem c!"/g/" [] (mkData [c!"a"] none) c!"mybase" ∧ r = (⟨[c!"b"], [], fun _ => true⟩ : ImpRun) ∧
    (impInfo i r).name = c!"mybase_a_post_b" ∧ (impInfo i r).normedName = c!"base_a_b" ∧ (impInfo i r).paramtag = c!"base" :=
  ⟨_, _, rfl, rfl, by decide +kernel, by decide +kernel, by decide +kernel⟩

/-! ## C36: finding runs -/

theorem normedItem_some {skip : List Str} {l : List Job} {name : Str} {w : Bool} {ex : Option Nat} {j : Job}
    (h : normedItem skip l name w ex = some j) : j ∈ items skip w l ∧ j.info.normedName = name ∧ some j.uid ≠ ex := by
  unfold normedItem at h
  have h2 := List.find?_some h
  simp only [Bool.and_eq_true, decide_eq_true_eq] at h2
  exact ⟨List.mem_of_find?_eq_some h, h2.1, h2.2⟩

theorem normedItem_none {skip : List Str} {l : List Job} {name : Str} {w : Bool} {ex : Option Nat} :
    normedItem skip l name w ex = none ↔ ∀ j ∈ items skip w l, j.info.normedName = name → some j.uid = ex := by
  unfold normedItem
  rw [List.find?_eq_none]
  constructor
  · intro h j hj hn
    have := h j hj
    simp only [Bool.and_eq_true, decide_eq_true_eq, not_and] at this
    exact Classical.byContradiction (fun hc => this hn hc)
  · intro h j hj hc
    simp only [Bool.and_eq_true, decide_eq_true_eq] at hc
    exact hc.2 (h j hj hc.1)

/-- **C36**: looking up a run by its parameters and its data finds it, whatever the order of the parameters and of the data and
whether or not the tag has a `_post` mark — more precisely the first run of the grid with those parameters and data -/
theorem resolveName_finds {skip : List Str} {l : List Job} {j : Job} (w re : Bool) (hj : j ∈ items skip w l) (hp : Named j.info)
    (hpn : ∀ p ∈ j.info.params, p ≠ []) (hdn : j.info.data.names ≠ []) {ps ns : List Str} {t : Str}
    (hps : ps.Perm j.info.params) (hns : ns.Perm j.info.data.names) (ht : TagOf ns t) :
    ∃ k, resolveName skip l (join us ps) t j.info.base w re = .ok (some k) ∧ k.info.normedName = j.info.normedName ∧
      (items skip w l).find? (fun x => decide (x.info.normedName = j.info.normedName)) = some k := by
  have hgood : ∀ n ∈ ns, Good n := fun n hn => hp.good n (by simp [hns.mem_iff.mp hn])
  have hnn : ns ≠ [] := by rintro rfl; exact hdn (List.nil_perm.mp hns)
  have hname : (join us (if join us ps = [] then [j.info.base] else j.info.base :: sorted (splitChar '_' (join us ps))) ++ us ++
      normalizeDataTag t) = j.info.normedName := by
    rw [normalizeDataTag_eq hgood hnn ht, hp.nn, normedNameOf_eq _ _ _ hpn hdn, sorted_eq_of_perm hns,
      join_append (by simp) (sorted_ne_nil hdn)]
    congr 2
    by_cases hz : ps = []
    · subst hz
      rw [List.nil_perm.mp hps]
      simp [join, Verif.IniFile.sortStr]
    · have hne : join us ps ≠ [] := by
        obtain ⟨a, ps', rfl⟩ := List.exists_cons_of_ne_nil hz
        have : a ≠ [] := hpn a (hps.mem_iff.mp List.mem_cons_self)
        rw [join_flat]; simp [this]
      rw [if_neg hne, splitChar_join hz (fun n hn => (hp.good n (by simp [hps.mem_iff.mp hn])).1), sorted_eq_of_perm hps]
  unfold resolveName
  dsimp only
  rw [hname]
  cases hf : normedItem skip l j.info.normedName w none with
  | none => exact absurd (normedItem_none.mp hf j hj rfl) (by simp)
  | some k =>
    refine ⟨k, rfl, (normedItem_some hf).2.1, ?_⟩
    unfold normedItem at hf
    simpa using hf

/-- **C36**: a run is only found under its own normalised name; if there is none the lookup fails as requested -/
theorem resolveName_sound (skip : List Str) (l : List Job) (paramtag datatag base : Str) (w re : Bool) :
    (∀ k, resolveName skip l paramtag datatag base w re = .ok (some k) → k ∈ items skip w l ∧ k.info.normedName =
      join us (if paramtag = [] then [base] else base :: sorted (splitChar '_' paramtag)) ++ us ++ normalizeDataTag datatag) ∧
    (resolveName skip l paramtag datatag base w re = .error .exception ↔ re = true ∧ ∀ k ∈ items skip w l, k.info.normedName ≠
      join us (if paramtag = [] then [base] else base :: sorted (splitChar '_' paramtag)) ++ us ++ normalizeDataTag datatag) := by
  unfold resolveName
  dsimp only
  cases hf : normedItem skip l _ w none with
  | some k =>
    have h2 := normedItem_some hf
    refine ⟨fun k' e => ?_, ?_⟩
    · cases e; exact ⟨h2.1, h2.2.1⟩
    · constructor
      · intro e; cases e
      · rintro ⟨-, h⟩; exact absurd h2.2.1 (h k h2.1)
  | none =>
    have h2 := normedItem_none.mp hf
    refine ⟨fun k' e => ?_, ?_⟩
    · simp only at e; split at e <;> cases e
    · constructor
      · intro e
        refine ⟨?_, fun k hk hn => absurd (h2 k hk hn) (by simp)⟩
        simp only at e; split at e
        · assumption
        · cases e
      · rintro ⟨rfl, -⟩; rfl

def exGrid : List Job := [.node (mkItem c!"/g/" [c!"w"] (mkData [c!"plik", c!"BAO"] none) c!"base") 0
  [.node (impInfo (mkItem c!"/g/" [c!"w"] (mkData [c!"plik", c!"BAO"] none) c!"base") ⟨[c!"lens"], [], fun _ => true⟩) 1 []]]

def nameOf (r : Except BErr (Option Job)) : Option Str := match r with | .ok (some j) => some j.info.name | _ => none

example : nameOf (resolveName [] exGrid c!"w" c!"BAO_plik" c!"base" true true) = some c!"base_w_plik_BAO" ∧
    nameOf (resolveName [] exGrid c!"w" c!"lens_BAO_plik" c!"base" true true) = some c!"base_w_plik_BAO_post_lens" ∧
    nameOf (resolveName [] exGrid c!"w" c!"BAO_plik_post_lens" c!"base" true true) = some c!"base_w_plik_BAO_post_lens" := by
  decide +kernel

/-- a run whose data name contains the separator cannot be found under its own tag -/
theorem resolveName_underscore_fails : ∃ i : Info, i = mkItem c!"/g/" [] (mkData [c!"a_c", c!"b"] none) c!"base" ∧
    resolveName [] [.node i 0 []] [] i.datatag c!"base" true true = .error .exception :=
  ⟨_, rfl, by
    have : normedItem [] [.node (mkItem c!"/g/" [] (mkData [c!"a_c", c!"b"] none) c!"base") 0 []]
        (c!"base_a_b_c") true none = none := by
      rw [normedItem_none]
      intro j hj
      simp only [items, itemsImp, imps, impsL, if_true, List.flatMap_cons, List.flatMap_nil, List.append_nil, List.filter_nil,
        List.mem_singleton] at hj
      subst hj
      intro h
      exact absurd h (by decide +kernel)
    unfold resolveName
    dsimp only
    rw [show join us (if ([] : Str) = [] then [c!"base"] else c!"base" :: sorted (splitChar '_' [])) ++ us ++
      normalizeDataTag (mkItem c!"/g/" [] (mkData [c!"a_c", c!"b"] none) c!"base").datatag = c!"base_a_b_c" by decide +kernel, this]
    rfl⟩

/-- **C36**: looking up a full name: the run of exactly that name has precedence; otherwise a run whose normalised name is the query -/
theorem resolveRoot_spec (skip : List Str) (l : List Job) (root : Str) :
    (∀ j, resolveRoot skip l root = some j → j ∈ itemsImp skip l ∧ (j.info.name = root ∨
      j.info.normedName = root ∧ ∀ k ∈ itemsImp skip l, k.info.name ≠ root)) ∧
    (resolveRoot skip l root = none ↔ ∀ k ∈ itemsImp skip l, k.info.name ≠ root ∧ k.info.normedName ≠ root) := by
  unfold resolveRoot
  cases hf : (itemsImp skip l).find? (fun j => decide (j.info.name = root)) with
  | some j =>
    have h1 := List.mem_of_find?_eq_some hf
    have h2 := List.find?_some hf
    simp only [decide_eq_true_eq] at h2
    refine ⟨fun k e => ?_, ?_⟩
    · cases e; exact ⟨h1, .inl h2⟩
    · constructor
      · intro e; cases e
      · intro h; exact absurd h2 (h j h1).1
  | none =>
    have h1 : ∀ k ∈ itemsImp skip l, k.info.name ≠ root := by
      intro k hk; simpa using List.find?_eq_none.mp hf k hk
    simp only []
    refine ⟨fun j e => ?_, ?_⟩
    · have := normedItem_some e
      exact ⟨this.1, .inr ⟨this.2.1, h1⟩⟩
    · rw [normedItem_none]
      constructor
      · intro h k hk; exact ⟨h1 k hk, fun hn => absurd (h k hk hn) (by simp)⟩
      · intro h k hk hn; exact absurd hn (h k hk).2

/-- the query of `resolveRoot` is not normalised: a run is not found under its name with the data in another order -/
theorem resolveRoot_order_fails : (resolveRoot [] exGrid c!"base_w_BAO_plik").isSome = true ∧
    (resolveRoot [] exGrid c!"base_w_plik_BAO").isSome = true ∧
    (resolveRoot [] [.node (mkItem c!"/g/" [] (mkData [c!"a", c!"b"] none) c!"base") 0 []] c!"base_b_a").isSome = false := by
  decide +kernel

end Verif.Batch
