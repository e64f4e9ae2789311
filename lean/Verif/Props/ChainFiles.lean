import Verif.Model.ChainFiles
import Verif.Lemmas.Str
import Mathlib.Tactic.Tauto

/-!
# Which files belong to a chain root (C23), and where saved chains are found again (C59)
-/

namespace Verif.ChainFiles
open Verif.Py Verif.Py.Path

/-! ## Specification -/

/-- a number written with ASCII digits -/
def Digits (s : Str) : Prop := s ≠ [] ∧ ∀ c ∈ s, Re.digit c = true

/-- decimal value -/
def value (s : Str) : Nat := s.foldl (fun n c => 10 * n + (c.toNat - '0'.toNat)) 0

/-- the limits on the chain number -/
structure Allowed (o : Opts) (n : Nat) : Prop where
  inList : ∀ l, o.chainIndices = some l → n ∈ l
  notExcluded : ∀ l, o.chainExclude = some l → n ∉ l
  first : o.firstChain ≤ n
  last : 0 ≤ o.lastChain → (n : Int) ≤ o.lastChain

/-- file `f` is the chain file number `n` of the root with this base name -/
inductive IsChain (base sep ext : Str) : Nat → Str → Prop
  | plain : IsChain base sep ext 0 (base ++ ext)
  | numbered (d : Str) (h : Digits d) : IsChain base sep ext (value d) (base ++ sep ++ d ++ ext)

/-! ## The matcher -/

theorem digitSplits_mem : ∀ {t : Str} {p : Str × Str}, p ∈ Re.digitSplits t ↔ t = p.1 ++ p.2 ∧ Digits p.1
  | [], p => by
    simp only [Re.digitSplits, List.not_mem_nil, false_iff, not_and]
    intro h hd
    have := List.append_eq_nil_iff.mp h.symm
    exact hd.1 this.1
  | c :: cs, p => by
    unfold Re.digitSplits
    by_cases hc : Re.digit c = true
    · rw [if_pos hc]
      simp only [List.mem_append, List.mem_map, List.mem_singleton]
      constructor
      · rintro (⟨q, hq, rfl⟩ | rfl)
        · obtain ⟨h1, h2, h3⟩ := digitSplits_mem.mp hq
          refine ⟨by simp [h1], by simp, ?_⟩
          intro x hx
          rcases List.mem_cons.mp hx with rfl | hx
          · exact hc
          · exact h3 x hx
        · exact ⟨rfl, by simp, by simpa using hc⟩
      · rintro ⟨h1, h2, h3⟩
        obtain ⟨p1, p2⟩ := p
        cases p1 with
        | nil => exact absurd rfl h2
        | cons x p1 =>
          simp only [List.cons_append, List.cons.injEq] at h1
          obtain ⟨rfl, h1⟩ := h1
          by_cases hp : p1 = []
          · subst hp; right; simp [h1]
          · left
            exact ⟨(p1, p2), digitSplits_mem.mpr ⟨h1, hp, fun y hy => h3 y (List.mem_cons_of_mem _ hy)⟩, rfl⟩
    · rw [if_neg hc]
      simp only [List.not_mem_nil, false_iff, not_and]
      intro h1 hd
      obtain ⟨p1, p2⟩ := p
      cases p1 with
      | nil => exact hd.1 rfl
      | cons x p1 =>
        simp only [List.cons_append, List.cons.injEq] at h1
        exact hc (h1.1 ▸ hd.2 x List.mem_cons_self)

theorem lit_mem {s t : Str} {p : Option Str × Str} : p ∈ (Re.lit s).run t ↔ p.1 = none ∧ t = s ++ p.2 := by
  unfold Re.run
  obtain ⟨g, r⟩ := p
  by_cases h : s.isPrefixOf t = true
  · rw [if_pos h]
    rw [List.isPrefixOf_iff_prefix] at h
    obtain ⟨u, rfl⟩ := h
    simp [eq_comm]
  · rw [if_neg h]
    simp only [List.not_mem_nil, false_iff, not_and]
    rintro _ rfl
    exact h (by simp [List.isPrefixOf_iff_prefix])

theorem numbered_mem {base sep ext t : Str} {g : Option Str} :
    (g, ([] : Str)) ∈ (Re.seq (.lit base) (.seq (.opt (.seq (.lit sep) .num)) (.lit ext))).run t ↔
      (g = none ∧ t = base ++ ext) ∨ (∃ d, Digits d ∧ g = some d ∧ t = base ++ sep ++ d ++ ext) := by
  simp only [Re.run, List.mem_flatMap, List.mem_map, List.mem_append, List.mem_singleton, Prod.exists, Prod.mk.injEq]
  constructor
  · rintro ⟨g1, t1, h1, g2, t2, ⟨g3, t3, h3, g4, t4, h4, rfl, rfl⟩, rfl, ht2⟩
    have h1' := lit_mem (s := base) (t := t) (p := (g1, t1)) |>.mp h1
    have h4' := lit_mem (s := ext) (t := t3) (p := (g4, t4)) |>.mp h4
    dsimp only at h1' h4'
    obtain ⟨rfl, rfl⟩ := h1'
    obtain ⟨rfl, h4'⟩ := h4'
    subst ht2
    rcases h3 with ⟨g5, t5, h5, g6, t6, ⟨a, b, hab, rfl, rfl⟩, rfl, rfl⟩ | ⟨rfl, rfl⟩
    · have h5' := lit_mem (s := sep) (p := (g5, t5)) |>.mp h5
      obtain ⟨rfl, h5'⟩ := h5'
      obtain ⟨hx, hd⟩ := digitSplits_mem.mp hab
      dsimp only at h5' hx
      right
      refine ⟨a, hd, by simp, ?_⟩
      rw [h5', hx, h4', List.append_nil]; simp
    · left
      exact ⟨by simp, by rw [h4', List.append_nil]⟩
  · rintro (⟨rfl, rfl⟩ | ⟨d, hd, rfl, rfl⟩)
    · refine ⟨none, ext, lit_mem.mpr ⟨rfl, rfl⟩, none, [], ⟨none, ext, Or.inr ⟨rfl, rfl⟩, none, [],
        lit_mem.mpr ⟨rfl, by simp⟩, rfl, rfl⟩, rfl, rfl⟩
    · refine ⟨none, sep ++ d ++ ext, lit_mem.mpr ⟨rfl, by simp⟩, some d, [], ⟨some d, ext, Or.inl
        ⟨none, d ++ ext, lit_mem.mpr ⟨rfl, by simp⟩, some d, ext, ⟨d, ext, digitSplits_mem.mpr ⟨rfl, hd⟩, rfl, rfl⟩, rfl, rfl⟩,
        none, [], lit_mem.mpr ⟨rfl, by simp⟩, rfl, rfl⟩, rfl, rfl⟩

theorem anon_mem {ext t : Str} {g : Option Str} :
    (g, ([] : Str)) ∈ (Re.seq (.opt .num) (.lit ext)).run t ↔
      (g = none ∧ t = ext) ∨ (∃ d, Digits d ∧ g = some d ∧ t = d ++ ext) := by
  simp only [Re.run, List.mem_flatMap, List.mem_map, List.mem_append, List.mem_singleton, Prod.exists, Prod.mk.injEq]
  constructor
  · rintro ⟨g3, t3, h3, g4, t4, h4, rfl, ht4⟩
    have h4' := lit_mem (s := ext) (t := t3) (p := (g4, t4)) |>.mp h4
    obtain ⟨rfl, h4'⟩ := h4'
    dsimp only at h4'
    subst ht4
    rcases h3 with ⟨a, b, hab, rfl, rfl⟩ | ⟨rfl, rfl⟩
    · obtain ⟨hx, hd⟩ := digitSplits_mem.mp hab
      dsimp only at hx
      right
      exact ⟨a, hd, by simp, by rw [hx, h4', List.append_nil]⟩
    · left
      exact ⟨by simp, by rw [h4', List.append_nil]⟩
  · rintro (⟨rfl, rfl⟩ | ⟨d, hd, rfl, rfl⟩)
    · exact ⟨none, t, Or.inr ⟨rfl, rfl⟩, none, [], lit_mem.mpr ⟨rfl, by simp⟩, rfl, rfl⟩
    · exact ⟨some d, ext, Or.inl ⟨d, ext, digitSplits_mem.mpr ⟨rfl, hd⟩, rfl, rfl⟩, none, [],
        lit_mem.mpr ⟨rfl, by simp⟩, rfl, rfl⟩

theorem fullmatch_some {r : Re} {t : Str} {g : Option Str} (h : r.fullmatch t = some g) : (g, ([] : Str)) ∈ r.run t := by
  unfold Re.fullmatch at h
  rw [Option.map_eq_some_iff] at h
  obtain ⟨⟨g', t'⟩, h1, rfl⟩ := h
  have h2 := List.find?_some h1
  have h3 := List.mem_of_find?_eq_some h1
  simp only [List.isEmpty_iff] at h2
  subst h2
  exact h3

theorem fullmatch_of_mem {r : Re} {t : Str} {g : Option Str} (h : (g, ([] : Str)) ∈ r.run t) :
    ∃ g', r.fullmatch t = some g' := by
  unfold Re.fullmatch
  cases hf : (r.run t).find? (·.2.isEmpty) with
  | none =>
    have := List.find?_eq_none.mp hf _ h
    simp at this
  | some p => exact ⟨p.1, rfl⟩

theorem wanted_iff {o : Opts} {n : Nat} : wanted o n = true ↔ Allowed o n := by
  unfold wanted
  rw [Bool.and_eq_true, Bool.and_eq_true, Bool.and_eq_true, Bool.or_eq_true, decide_eq_true_eq, decide_eq_true_eq,
    decide_eq_true_eq, Option.all_eq_true, Option.all_eq_true]
  constructor
  · rintro ⟨⟨⟨h1, h2⟩, h3⟩, h4⟩
    exact ⟨fun l hl => by simpa using h1 l hl, fun l hl => by simpa using h2 l hl, h3, fun h => by omega⟩
  · rintro ⟨h1, h2, h3, h4⟩
    refine ⟨⟨⟨fun l hl => by simpa using h1 l hl, fun l hl => by simpa using h2 l hl⟩, h3⟩, ?_⟩
    by_cases h : o.lastChain < 0
    · exact Or.inl h
    · exact Or.inr (h4 (by omega))

theorem ofDigitChars_foldl (d : Str) : Nat.ofDigitChars 10 d 0 = value d := rfl

/-! ## C23 -/

/-- the base name of a root, and the separator: a root that ends in a slash has neither -/
def rootBase (root : Str) : Str := if endsWith ['/'] root then [] else basename root
def rootSep (root : Str) (o : Opts) : Str := if endsWith ['/'] root then [] else o.separator

/-- **C23**: a name in the directory is accepted exactly when it is the base name, optionally with separator and number,
and the extension, and its number is allowed. -/
theorem accepts_iff {root f : Str} {o : Opts} :
    accepts root o f = true ↔ ∃ n, IsChain (rootBase root) (rootSep root o) o.ext n f ∧ Allowed o n := by
  have key : ∀ g, (g, ([] : Str)) ∈ (pattern root o).run f ↔
      (g = none ∧ f = rootBase root ++ o.ext) ∨
      (∃ d, Digits d ∧ g = some d ∧ f = rootBase root ++ rootSep root o ++ d ++ o.ext) := by
    intro g
    unfold pattern rootBase rootSep
    by_cases h : endsWith ['/'] root = true
    · simp only [h, if_true, anon_mem, List.nil_append]
    · simp only [h, if_false, Bool.false_eq_true, numbered_mem]
  unfold accepts
  constructor
  · intro h
    cases hf : (pattern root o).fullmatch f with
    | none => simp [hf] at h
    | some g =>
      simp only [hf] at h
      rcases (key g).mp (fullmatch_some hf) with ⟨rfl, rfl⟩ | ⟨d, hd, rfl, rfl⟩
      · exact ⟨0, .plain, wanted_iff.mp h⟩
      · exact ⟨value d, .numbered d hd, wanted_iff.mp h⟩
  · rintro ⟨n, hc, ha⟩
    cases hc with
    | plain =>
      obtain ⟨g, hg⟩ := fullmatch_of_mem ((key none).mpr (Or.inl ⟨rfl, rfl⟩))
      simp only [hg]
      rcases (key g).mp (fullmatch_some hg) with ⟨rfl, _⟩ | ⟨d, hd, rfl, h⟩
      · exact wanted_iff.mpr ha
      · exfalso
        have := congrArg List.length h
        simp only [List.length_append] at this
        have := List.length_pos_iff.mpr hd.1
        omega
    | numbered d hd =>
      obtain ⟨g, hg⟩ := fullmatch_of_mem ((key (some d)).mpr (Or.inr ⟨d, hd, rfl, rfl⟩))
      simp only [hg]
      rcases (key g).mp (fullmatch_some hg) with ⟨rfl, h⟩ | ⟨d', hd', rfl, h⟩
      · exfalso
        have := congrArg List.length h
        simp only [List.length_append] at this
        have := List.length_pos_iff.mpr hd.1
        omega
      · have : d = d' := by
          have := List.append_cancel_right h
          exact List.append_cancel_left this
        subst this
        exact wanted_iff.mpr ha

/-- **C23**: the list of chain files.  Every entry is in the root's directory, the entries are exactly the allowed chain
files, and no directory entry is used twice or out of order. -/
theorem chainFiles_spec {d : Dirs} {root : Str} {o : Opts} {files : List Str} (h : chainFiles d root o = .ok files) :
    ∃ names used : List Str, d.ls (dirname root) = some names ∧ used.Sublist names ∧ files = used.map (Path.join (dirname root)) ∧
      ∀ f, f ∈ used ↔ f ∈ names ∧ ∃ n, IsChain (rootBase root) (rootSep root o) o.ext n f ∧ Allowed o n := by
  unfold chainFiles Dirs.listdir at h
  cases hl : d.ls (dirname root) with
  | none => simp [hl] at h; cases h
  | some names =>
    simp only [hl] at h
    cases h
    refine ⟨names, names.filter (accepts root o), rfl, List.filter_sublist, rfl, ?_⟩
    intro f
    rw [List.mem_filter, accepts_iff]

theorem chainFiles_ok {d : Dirs} {root : Str} {o : Opts} {names : List Str} (h : d.ls (dirname root) = some names) :
    chainFiles d root o = .ok ((names.filter (accepts root o)).map (Path.join (dirname root))) := by
  unfold chainFiles Dirs.listdir; dsimp only; rw [h]; rfl

theorem chainFiles_bad {d : Dirs} {root : Str} {o : Opts} (h : d.ls (dirname root) = none) :
    chainFiles d root o = .error .fileNotFound := by
  unfold chainFiles Dirs.listdir; dsimp only; rw [h]; rfl

/-- **C23**: the only failure is a directory that cannot be listed. -/
theorem chainFiles_error {d : Dirs} {root : Str} {o : Opts} {e : FErr} :
    chainFiles d root o = .error e ↔ d.ls (dirname root) = none ∧ e = .fileNotFound := by
  cases h : d.ls (dirname root) with
  | none => rw [chainFiles_bad h]; simp [eq_comm]
  | some names => rw [chainFiles_ok h]; simp

/-- **C23**: a numbered chain file belongs to one root only, whatever else the names have in common. -/
theorem numbered_unique {b1 b2 sep ext d1 d2 : Str} {s : Str} {c : Char} (hs : sep = s ++ [c]) (hc : Re.digit c = false)
    (h1 : Digits d1) (h2 : Digits d2) (h : b1 ++ sep ++ d1 ++ ext = b2 ++ sep ++ d2 ++ ext) : b1 = b2 ∧ d1 = d2 := by
  subst hs
  have h3 := List.append_cancel_right h
  have h4 := congrArg List.reverse h3
  simp only [List.reverse_append, List.reverse_cons, List.reverse_nil, List.nil_append, List.singleton_append] at h4
  have e1 := takeWhile_append_stop (p := Re.digit) (a := d1.reverse) (b := s.reverse ++ b1.reverse) (x := c)
    (by intro x hx; exact h1.2 x (by simpa using hx)) hc
  have e2 := takeWhile_append_stop (p := Re.digit) (a := d2.reverse) (b := s.reverse ++ b2.reverse) (x := c)
    (by intro x hx; exact h2.2 x (by simpa using hx)) hc
  rw [List.cons_append, List.cons_append] at h4
  rw [h4] at e1
  have hd : d1 = d2 := by rw [← List.reverse_inj]; exact e1.symm.trans e2
  subst hd
  refine ⟨?_, rfl⟩
  have := List.append_cancel_right h3
  exact List.append_cancel_right this

/-- **C23**: but the file of an unnumbered chain counts as a chain of a shorter root as well. -/
theorem plain_file_two_roots_fails :
    let d : Dirs := ⟨fun p => if p = c!"chains" then some [c!"base_1.txt"] else none⟩
    chainFiles d c!"chains/base" {} = .ok [c!"chains/base_1.txt"] ∧
    chainFiles d c!"chains/base_1" {} = .ok [c!"chains/base_1.txt"] := by decide +kernel

/-- **C23**: a root without directory never works, because the empty path cannot be listed. -/
theorem bare_root_fails {d : Dirs} {root : Str} {o : Opts} (hos : d.ls [] = none) (h : '/' ∉ root) :
    chainFiles d root o = .error .fileNotFound := by
  rw [chainFiles_error, dirname_bare h]
  exact ⟨hos, rfl⟩

example : chainFiles ⟨fun p => if p = c!"." then some [c!"test_1.txt"] else none⟩ c!"test" {} = .error .fileNotFound :=
  bare_root_fails (by decide) (by decide)

/-! ## Is there a chain, and where -/

/-- the root has a chain with number 0 or 1 under one of the two separators -/
def HasChain (names : List Str) (root ext : Str) : Prop :=
  ∃ f ∈ names, ∃ n ≤ 1, IsChain (rootBase root) (if endsWith ['/'] root then [] else c!"_") ext n f ∨
    IsChain (rootBase root) (if endsWith ['/'] root then [] else c!".") ext n f

theorem allowed_one {ext sep : Str} {n : Nat} :
    Allowed { ext := ext, separator := sep, lastChain := 1 } n ↔ n ≤ 1 := by
  constructor
  · intro h; have := h.last (by simp); dsimp only at this; omega
  · intro h
    exact ⟨by simp, by simp, by simp, by intro _; dsimp only; omega⟩

theorem hasChainFiles_spec {d : Dirs} {root ext : Str} {b : Bool} (h : hasChainFiles d root ext = .ok b) :
    ∃ names, d.ls (dirname root) = some names ∧ (b = true ↔ HasChain names root ext) := by
  unfold hasChainFiles at h
  cases hl : d.ls (dirname root) with
  | none => rw [chainFiles_bad hl] at h; cases h
  | some names =>
    refine ⟨names, rfl, ?_⟩
    rw [chainFiles_ok hl, chainFiles_ok hl] at h
    simp only [bind, Except.bind, pure, Except.pure, List.isEmpty_map] at h
    have hA : ∀ sep : Str, (names.filter (accepts root { ext := ext, separator := sep, lastChain := 1 })).isEmpty = false ↔
        ∃ f ∈ names, ∃ n ≤ 1, IsChain (rootBase root) (if endsWith ['/'] root then [] else sep) ext n f := by
      intro sep
      rw [List.isEmpty_eq_false_iff_exists_mem]
      constructor
      · rintro ⟨f, hf⟩
        rw [List.mem_filter, accepts_iff] at hf
        obtain ⟨hf, n, h1, h2⟩ := hf
        exact ⟨f, hf, n, allowed_one.mp h2, h1⟩
      · rintro ⟨f, hf, n, h1, h2⟩
        exact ⟨f, List.mem_filter.mpr ⟨hf, accepts_iff.mpr ⟨n, h2, allowed_one.mpr h1⟩⟩⟩
    have h1 := hA c!"_"
    have h2 := hA c!"."
    have e : HasChain names root ext ↔
        (∃ f ∈ names, ∃ n ≤ 1, IsChain (rootBase root) (if endsWith ['/'] root then [] else c!"_") ext n f) ∨
        (∃ f ∈ names, ∃ n ≤ 1, IsChain (rootBase root) (if endsWith ['/'] root then [] else c!".") ext n f) := by
      constructor
      · rintro ⟨f, hf, n, hn, h | h⟩
        · exact Or.inl ⟨f, hf, n, hn, h⟩
        · exact Or.inr ⟨f, hf, n, hn, h⟩
      · rintro (⟨f, hf, n, hn, h⟩ | ⟨f, hf, n, hn, h⟩)
        · exact ⟨f, hf, n, hn, Or.inl h⟩
        · exact ⟨f, hf, n, hn, Or.inr h⟩
    rw [e, ← h1, ← h2]
    split at h
    · rename_i ha
      cases h
      rw [ha]
      simp only [Bool.not_eq_true', Bool.true_eq_false, false_or]
    · rename_i ha
      cases h
      simp only [true_iff]
      left
      simpa using ha

/-- the directory of every candidate can be listed -/
def Listable (d : Dirs) (l : List Str) : Prop := ∀ r ∈ l, d.ls (dirname r) ≠ none

theorem hasChainFiles_ok {d : Dirs} {root ext : Str} (h : d.ls (dirname root) ≠ none) : ∃ b, hasChainFiles d root ext = .ok b := by
  unfold hasChainFiles
  cases hl : d.ls (dirname root) with
  | none => exact absurd hl h
  | some names =>
    rw [chainFiles_ok hl, chainFiles_ok hl]
    simp only [bind, Except.bind, pure, Except.pure]
    split
    · exact ⟨_, rfl⟩
    · exact ⟨_, rfl⟩

/-- `res` is the first of the candidates that has chain files -/
def FirstOf (d : Dirs) (res : Option Str) (cands : List Str) : Prop :=
  match res with
  | none => ∀ r ∈ cands, hasChainFiles d r = .ok false
  | some r => ∃ a b, cands = a ++ r :: b ∧ hasChainFiles d r = .ok true ∧ ∀ q ∈ a, hasChainFiles d q = .ok false

theorem firstWith_spec {d : Dirs} : ∀ {l : List Str} {res : Option Str}, firstWith d l = .ok res →
    FirstOf d res l
  | [], res, h => by cases h; simp [FirstOf]
  | x :: l, res, h => by
    unfold firstWith at h
    cases hx : hasChainFiles d x with
    | error e => rw [hx] at h; cases h
    | ok b =>
      rw [hx] at h
      simp only [bind, Except.bind] at h
      cases b with
      | true => cases h; exact ⟨[], l, rfl, hx, by simp⟩
      | false =>
        simp only [Bool.false_eq_true, if_false] at h
        have ih := firstWith_spec h
        cases res with
        | none =>
          intro r hr
          rcases List.mem_cons.mp hr with rfl | hr
          · exact hx
          · exact ih r hr
        | some r =>
          obtain ⟨a, b, rfl, h1, h2⟩ := ih
          refine ⟨x :: a, b, rfl, h1, ?_⟩
          intro q hq
          rcases List.mem_cons.mp hq with rfl | hq
          · exact hx
          · exact h2 q hq

/-- **C23**: the search returns the root under the chain directory itself when it has chains, otherwise the first of the
sub-directories that does, and nothing only when there is none. -/
theorem find_spec {d : Dirs} {walk : List (Str × List Str)} {chainDir root : Str} {sub : Bool} {res : Option Str}
    (hr : '\\' ∉ root) (h : findChainFileRoot d walk chainDir root sub = .ok res) :
    FirstOf d res (Path.join chainDir root ::
      if sub then walk.flatMap (fun p => p.2.map (fun dir => Path.join (Path.join p.1 dir) root)) else []) := by
  have hrep : replaceChar '\\' ['/'] root = root := by
    unfold replaceChar
    clear h
    induction root with
    | nil => rfl
    | cons c cs ih =>
      simp only [List.mem_cons, not_or] at hr
      rw [List.flatMap_cons, ih hr.2, if_neg (by simpa using Ne.symm hr.1)]
      rfl
  have : firstWith d (Path.join chainDir root :: if sub then candidates walk root else []) = .ok res := by
    rw [← h]
    unfold findChainFileRoot
    dsimp only
    rw [hrep, firstWith]
    generalize hasChainFiles d (Path.join chainDir root) = x
    cases x with
    | error e => rfl
    | ok b => cases b <;> cases sub <;> rfl
  exact firstWith_spec this

example : findChainFileRoot ⟨fun p => if p = c!"/g" then some [c!"a"] else if p = c!"/g/a" then some [c!"r_1.txt", c!"r_x_1.txt"] else none⟩
    [(c!"/g", [c!"a"])] c!"/g" c!"r" true = .ok (some c!"/g/a/r") := by decide +kernel

/-- **C23**: a root with leading directories (allowed by the documentation) stops the search with an error as soon as
one place lacks that directory, although the chain exists further on. -/
theorem find_subdirectory_fails :
    let d : Dirs := ⟨fun p => if p = c!"/g" then some [c!"a"] else if p = c!"/g/a" then some [c!"b"] else
      if p = c!"/g/a/b" then some [c!"r_1.txt"] else none⟩
    findChainFileRoot d [(c!"/g", [c!"a"]), (c!"/g/a", [c!"b"])] c!"/g" c!"b/r" true = .error .fileNotFound ∧
    hasChainFiles d c!"/g/a/b/r" = .ok true := by decide +kernel

/-! ## Saving and finding again (C59) -/

theorem digit_strNat (n : Nat) : Digits (strNat n) := by
  refine ⟨strNat_ne_nil n, ?_⟩
  intro c hc
  have := strNat_isDigit hc
  unfold Char.isDigit at this
  unfold Re.digit
  simp only [Bool.and_eq_true, decide_eq_true_eq] at this ⊢
  exact this

theorem value_strNat (n : Nat) : value (strNat n) = n := by
  rw [← ofDigitChars_foldl]; unfold strNat; exact Nat.ofDigitChars_ten_toDigits

/-- **C59**: for a root `dir/base` not ending in `.txt`, the files written for chains `0..k` are the chain files of
that root with numbers `1..k+1`, and the one written without number is the chain file number 0. -/
theorem save_found {dir base : Str} {i : Option Nat} (hd : Plain dir) (hb : '/' ∉ base) (hne : base ≠ [])
    (ht : endsWith c!".txt" (dir ++ '/' :: base) = false) :
    ∃ f, saveName (dir ++ '/' :: base) i = Path.join (dirname (dir ++ '/' :: base)) f ∧
      accepts (dir ++ '/' :: base) {} f = true ∧
      IsChain base c!"_" c!".txt" (match i with | none => 0 | some i => i + 1) f := by
  have hE : endsWith ['/'] (dir ++ '/' :: base) = false := by
    rw [Bool.eq_false_iff]
    intro h
    unfold endsWith at h
    rw [List.isSuffixOf_iff_suffix] at h
    obtain ⟨a, ha⟩ := h
    rcases List.eq_nil_or_concat base with rfl | ⟨b', c, rfl⟩
    · exact hne rfl
    · have := congrArg List.getLast? ha
      rw [List.concat_eq_append, ← List.cons_append, ← List.append_assoc] at this
      simp only [List.getLast?_append, List.getLast?_singleton, Option.some_or, Option.some.injEq] at this
      simp [← this] at hb
  have hroot : rootBase (dir ++ '/' :: base) = base := by
    unfold rootBase; rw [if_neg (by simp [hE]), basename_join hb]
  have hsep : rootSep (dir ++ '/' :: base) {} = c!"_" := by
    unfold rootSep; rw [if_neg (by simp [hE])]
  have hAll : ∀ n, Allowed {} n := fun n => ⟨by simp, by simp, by simp, by simp⟩
  cases i with
  | none =>
    refine ⟨base ++ c!".txt", ?_, ?_, .plain⟩
    · unfold saveName
      rw [dirname_join hd hb, join_plain hd (not_abs_of_no_slash (by simp [hb])), if_neg (by rw [ht]; decide)]
      simp
    · rw [accepts_iff, hroot, hsep]; exact ⟨0, .plain, hAll 0⟩
  | some i =>
    refine ⟨base ++ c!"_" ++ strNat (i + 1) ++ c!".txt", ?_, ?_, ?_⟩
    · unfold saveName
      have hx : '/' ∉ base ++ c!"_" ++ strNat (i + 1) ++ c!".txt" := by
        intro hm
        simp only [List.mem_append] at hm
        rcases hm with ((hm | hm) | hm) | hm
        · exact hb hm
        · simp at hm
        · have := (digit_strNat (i + 1)).2 _ hm
          exact absurd this (by decide)
        · simp at hm
      rw [dirname_join hd hb, join_plain hd (not_abs_of_no_slash hx), if_neg (by rw [ht]; decide)]
      simp
    · rw [accepts_iff, hroot, hsep]
      exact ⟨_, .numbered _ (digit_strNat (i + 1)), hAll _⟩
    · have := IsChain.numbered (base := base) (sep := c!"_") (ext := c!".txt") _ (digit_strNat (i + 1))
      rw [value_strNat] at this
      exact this

example : ∃ f, saveName c!"out/run" (some 11) = Path.join c!"out" f ∧ accepts c!"out/run" {} f = true :=
  ⟨c!"run_12.txt", by decide +kernel, by decide +kernel⟩

/-- distinct chains of one save are written to distinct files -/
theorem saveName_injective {root : Str} {i j : Option Nat} (h : saveName root i = saveName root j) : i = j := by
  unfold saveName at h
  have := List.append_cancel_left (List.append_cancel_right h)
  cases i <;> cases j <;> simp at this
  · rfl
  · have h2 := strNat_injective this
    simpa using h2

/-- **C59**: saving under a name that already ends in `.txt` (the code has a branch for it) writes a different file, with
two dots, which is not found under the root. -/
theorem save_txt_root_fails :
    saveName c!"out/run.txt" none = c!"out/run..txt" ∧ saveMeta c!"out/run.txt" none = some c!"out/run.txt.paramnames" ∧
    accepts c!"out/run" {} c!"run..txt" = false := by decide +kernel

/-- **C59**: the parameter names are written once, beside the first chain -/
theorem saveMeta_iff {root : Str} {i : Option Nat} {f : Str} :
    saveMeta root i = some f ↔ (i = none ∨ i = some 0) ∧ f = root ++ c!".paramnames" := by
  unfold saveMeta
  split
  · simp [eq_comm]
  · simp [eq_comm]
  · rename_i n hn
    constructor
    · intro h; cases h
    · rintro ⟨h | h, _⟩
      · cases h
      · exact absurd (Option.some.inj h) hn

/-! ## Chain roots of a directory -/

theorem mem_insertStr {a b : Str} : ∀ {l : List Str}, b ∈ insertStr a l ↔ b = a ∨ b ∈ l
  | [] => by simp [insertStr]
  | c :: l => by
    unfold insertStr
    split
    · simp
    · simp only [List.mem_cons, mem_insertStr]; tauto

theorem mem_sortStr {b : Str} : ∀ {l : List Str}, b ∈ sortStr l ↔ b ∈ l
  | [] => by simp [sortStr]
  | c :: l => by unfold sortStr; rw [mem_insertStr, mem_sortStr]; simp

/-- `get_chain_root_files` with a relative directory looks for the chains in `dir/dir` and raises an error. -/
theorem root_files_relative_fails :
    let l := some [c!"r.paramnames", c!"r_1.txt"]
    getChainRootFiles ⟨fun p => if p = c!"g/a" then l else none⟩ c!"g/a" = .error .fileNotFound ∧
    getChainRootFiles ⟨fun p => if p = c!"/g/a" then l else none⟩ c!"/g/a" = .ok [c!"/g/a/r"] := by decide +kernel

/-- with both a `.paramnames` file and an `updated.yaml` file the same root is listed twice -/
theorem root_files_twice_fails :
    getChainRootFiles ⟨fun p => if p = c!"/g/a" then some [c!"r.paramnames", c!"r.updated.yaml", c!"r.1.txt"] else none⟩ c!"/g/a"
      = .ok [c!"/g/a/r", c!"/g/a/r"] := by decide +kernel

end Verif.ChainFiles
