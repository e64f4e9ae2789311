import Verif.Model.CommandLine
import Verif.Model.ChainFiles
import Verif.Lemmas.Split

/-!
# The command line: which chains are analysed with which settings, and which parameters a setting names
-/

namespace Verif.CommandLine
open Verif.Py Verif.ParamNames

variable {isFile : Str → Bool} {glob : Str → List Str} {dflt : Str}

theorem dropTxt_txt (r : Str) : dropTxt (r ++ c!".txt") = r := by
  have h : endsWith c!".txt" (r ++ c!".txt") = true := List.isSuffixOf_iff_suffix.mpr (List.suffix_append _ _)
  rw [dropTxt, if_pos h, List.length_append]
  exact List.take_left' rfl

theorem dropTxt_other {r : Str} (h : ¬ c!".txt" <:+ r) : dropTxt r = r := by
  have h : endsWith c!".txt" r = false := by
    rw [Bool.eq_false_iff]; exact fun e => h (List.isSuffixOf_iff_suffix.mp e)
  simp [-String.reduceToList, dropTxt, h]

theorem wild_iff {s : Str} : wild s = true ↔ '*' ∈ s ∨ '?' ∈ s := by simp [wild]

theorem wild_false {s : Str} (h1 : '*' ∉ s) (h2 : '?' ∉ s) : wild s = false := by
  rw [Bool.eq_false_iff]; exact fun h => (wild_iff.mp h).elim h1 h2

/-- A chain root alone is analysed with the default settings and without plots. -/
theorem chain_alone {r : Str} (n : Nat) (hi : contains c!".ini" r = false) (ht : ¬ c!".txt" <:+ r) (h1 : '*' ∉ r)
    (h2 : '?' ∉ r) (hd : isFile dflt = true) :
    runs isFile glob dflt (n + 1) ⟨some r, none⟩ = some [(dflt, some r, true)] := by
  simp [-String.reduceToList, runs, resolve, hi, withIni, hd, dropTxt_other ht, wild_false h1 h2]

example : runs (fun _ => true) (fun _ => []) c!"default.ini" 1 ⟨some c!"chains/test", none⟩ =
    some [(c!"default.ini", some c!"chains/test", true)] := by decide

/-- A settings file alone is used with the root it names. -/
theorem ini_alone {f : Str} (n : Nat) (hi : contains c!".ini" f = true) (hf : isFile f = true) :
    runs isFile glob dflt (n + 1) ⟨some f, none⟩ = some [(f, none, false)] := by
  simp [-String.reduceToList, runs, resolve, hi, withIni, hf]

/-- A settings file with a chain root: that root, with those settings, whatever the file is called. -/
theorem both_given {f r : Str} (n : Nat) (ht : ¬ c!".txt" <:+ r) (h1 : '*' ∉ r) (h2 : '?' ∉ r) (hf : isFile f = true) :
    runs isFile glob dflt (n + 1) ⟨some f, some r⟩ = some [(f, some r, false)] := by
  simp [-String.reduceToList, runs, resolve, withIni, hf, dropTxt_other ht, wild_false h1 h2]

/-- Giving the root with `.txt` is the same as giving it without. -/
theorem txt_same {f r : Str} (n : Nat) (ht : ¬ c!".txt" <:+ r) :
    runs isFile glob dflt n ⟨some f, some (r ++ c!".txt")⟩ = runs isFile glob dflt n ⟨some f, some r⟩ := by
  cases n with
  | zero => rfl
  | succ n => simp [-String.reduceToList, runs, resolve, withIni, dropTxt_other ht, dropTxt_txt]

/-- Nothing is analysed without arguments, or with a settings file that does not exist. -/
theorem no_args (n : Nat) : runs isFile glob dflt n ⟨none, none⟩ = none := by
  cases n <;> simp [-String.reduceToList, runs, resolve]

theorem missing_ini {f : Str} (r : Option Str) (n : Nat) (hf : isFile f = false) (h : contains c!".ini" f = true) :
    runs isFile glob dflt n ⟨some f, r⟩ = none := by
  cases n with
  | zero => rfl
  | succ n => cases r <;> simp [-String.reduceToList, runs, resolve, withIni, hf, h]

/-- The chain root given on the command line wins over the one of the settings file; without either nothing is done. -/
theorem inRoot_spec (fileRoot root : Option Str) :
    (∀ r, root = some r → r ≠ [] → inRoot fileRoot root = some r) ∧
    (root = none → ∀ r, fileRoot = some r → r ≠ [] → inRoot fileRoot root = some r) ∧
    (inRoot none none = none ∧ inRoot fileRoot (some []) = none ∧ inRoot (some []) none = none) := by
  refine ⟨?_, ?_, by simp [inRoot]⟩
  · rintro r rfl h
    cases r with
    | nil => exact absurd rfl h
    | cons => simp [inRoot]
  · rintro rfl r rfl h
    cases r with
    | nil => exact absurd rfl h
    | cons => simp [inRoot]

example : inRoot (some c!"f") (some c!"r") = some c!"r" ∧ inRoot (some c!"f") none = some c!"f" ∧ inRoot (some c!"f") (some []) = none := by decide

/-- The setting `no_plots` decides; without it plots are off exactly if no settings file was given. -/
theorem plotsOff_spec (b : Bool) (s : Bool) : plotsOff (some s) b = s ∧ plotsOff none b = b := ⟨rfl, rfl⟩

example : plotsOff (some false) true = false ∧ plotsOff none true = true := by decide

/-- an ending whose first character does not come again is removed from the end only -/
theorem stem {e : Char} {t a : Str} (he : e ∉ t) (ha : contains (e :: t) a = false) :
    replaceStr (e :: t) [] (a ++ (e :: t)) = a := by
  rw [replaceStr_append]
  · have := replaceStr_match (pat := e :: t) [] [] (by simp)
    rw [List.append_nil] at this
    rw [this]
    simp [replaceStr_nil]
  · intro a1 a2 e1 hne
    rw [Bool.eq_false_iff]
    intro hs
    obtain ⟨u, hu⟩ := Verif.Py.startsWith_iff.mp hs
    rcases List.append_eq_append_iff.mp hu with ⟨v, h1, h2⟩ | ⟨v, h1, h2⟩
    · cases v with
      | nil =>
        have : contains (e :: t) a = true := contains_iff.mpr ⟨a1, [], by rw [e1]; simp at h1; simp [h1]⟩
        rw [this] at ha; cases ha
      | cons c v =>
        cases a2 with
        | nil => exact hne rfl
        | cons d a2 =>
          simp only [List.cons_append, List.cons.injEq] at h1 h2
          exact he (by rw [h1.2, h2.1]; simp)
    · have : contains (e :: t) a = true := contains_iff.mpr ⟨a1, v, by rw [e1, h1]; simp⟩
      rw [this] at ha; cases ha

/-- A chain root with wildcards: one analysis for each `.paramnames` file found, of the root in front of the ending, with
the settings given. -/
theorem wildcard_spec {f r : Str} (n : Nat) (roots : List Str) (hf : isFile f = true) (ht : ¬ c!".txt" <:+ r)
    (hw : '*' ∈ r ∨ '?' ∈ r)
    (hg : glob (r ++ c!".paramnames") = roots.map (· ++ c!".paramnames"))
    (hy : glob (r ++ c!"updated.yaml") = [])
    (hr : ∀ x ∈ roots, contains c!".paramnames" x = false ∧ '*' ∉ x ∧ '?' ∉ x ∧ ¬ c!".txt" <:+ x) :
    runs isFile glob dflt (n + 2) ⟨some f, some r⟩ = some (roots.map fun x => (f, some x, false)) := by
  have hs : ∀ x ∈ roots, replaceStr c!".paramnames" [] (x ++ c!".paramnames") = x :=
    fun x hx => stem (by decide) (hr x hx).1
  have hl : ((roots.map (· ++ c!".paramnames")).map fun g => (⟨some f, some (replaceStr c!".paramnames" [] g)⟩ : Args)) =
      roots.map fun x => ⟨some f, some x⟩ := by
    rw [List.map_map]
    exact List.map_congr_left fun x hx => by simp only [Function.comp_apply, hs x hx]
  have hm : ∀ l : List Str, (∀ x ∈ l, x ∈ roots) →
      (l.map fun x => (⟨some f, some x⟩ : Args)).mapM (runs isFile glob dflt (n + 1)) =
        some (l.map fun x => [(f, some x, false)]) := by
    intro l
    induction l with
    | nil => intro _; rfl
    | cons x l ih =>
      intro h
      have hx := hr x (h x List.mem_cons_self)
      rw [List.map_cons, List.mapM_cons, both_given n hx.2.2.2 hx.2.1 hx.2.2.1 hf,
        ih fun y hy => h y (List.mem_cons_of_mem _ hy)]
      rfl
  rw [runs]
  simp only [resolve, withIni, hf, Bool.not_true, Bool.false_eq_true, if_false, Option.map_some, dropTxt_other ht,
    if_pos (wild_iff.mpr hw), endings, List.flatMap_cons, List.flatMap_nil, hg, hy, hl, List.map_nil, List.append_nil]
  rw [hm roots fun _ h => h, Option.map_some]
  congr 1
  clear * -
  induction roots with
  | nil => rfl
  | cons x l ih => simp [ih]

/-- files of the example -/
def exGlob (p : Str) : List Str :=
  if p = c!"chains/*.paramnames" then [c!"chains/a.paramnames", c!"chains/b.paramnames"] else []

example : runs (fun _ => true) exGlob c!"d.ini" 2 ⟨some c!"my.ini", some c!"chains/*"⟩ =
    some [(c!"my.ini", some c!"chains/a", false), (c!"my.ini", some c!"chains/b", false)] := by decide +kernel

/-! ### what fails -/

/-- A chain root that contains `.ini` anywhere is taken for a settings file: the chains `chains/x.initial_1.txt` cannot be
analysed by giving their root, the message is that the parameter file does not exist. -/
theorem ini_substring_fails : ¬ ∀ (isFile : Str → Bool) (dflt r : Str), isFile dflt = true → ¬ c!".txt" <:+ r → '*' ∉ r →
    '?' ∉ r → ¬ c!".ini" <:+ r → resolve isFile (fun _ => []) dflt ⟨some r, none⟩ = .analyse dflt (some r) true := by
  intro h
  have := h (fun f => f == c!"default.ini") c!"default.ini" c!"chains/x.initial" (by decide) (by decide) (by decide)
    (by decide) (by decide)
  exact absurd this (by decide)

/-- Called with a chain root and no settings file (`args.ini_file = None`), which the first check lets pass, the script
stops with `TypeError`. -/
theorem no_ini_fails : ¬ ∀ (isFile : Str → Bool) (dflt r : Str), isFile dflt = true → ¬ c!".txt" <:+ r → '*' ∉ r →
    '?' ∉ r → resolve isFile (fun _ => []) dflt ⟨none, some r⟩ = .analyse dflt (some r) true := by
  intro h
  have := h (fun _ => true) c!"default.ini" c!"chains/x" (by decide) (by decide) (by decide) (by decide)
  exact absurd this (by decide)

/-- A root with wildcards given alone is analysed with plots on by default, though every root given by itself has them
off. -/
theorem wildcard_plots_fails : ¬ ∀ (glob : Str → List Str) (dflt r : Str) (l : List Run),
    runs (fun _ => true) glob dflt 2 ⟨some r, none⟩ = some l → contains c!".ini" r = false → ∀ x ∈ l, x.2.2 = true := by
  intro h
  have := h exGlob c!"d.ini" c!"chains/*" [(c!"d.ini", some c!"chains/a", false), (c!"d.ini", some c!"chains/b", false)]
    (by decide +kernel) (by decide) (c!"d.ini", some c!"chains/a", false) (by simp)
  cases this

/-- With wildcards the chains written by Cobaya (`chains/a.updated.yaml`, `chains/a.1.txt`) get the root `chains/a.` with
the dot, for which no chain file is found. -/
theorem wildcard_cobaya_fails : ¬ ∀ (glob : Str → List Str) (files : List Str),
    glob c!"chains/*updated.yaml" = [c!"chains/a.updated.yaml"] → glob c!"chains/*.paramnames" = [] →
    files = [c!"a.1.txt", c!"a.2.txt"] → ∀ l, runs (fun _ => true) glob c!"d.ini" 2 ⟨some c!"chains/*", none⟩ = some l →
    ∀ x ∈ l, ∀ r, x.2.1 = some r →
      ∃ sep ∈ [c!"_", c!"."], files.filter (ChainFiles.accepts r { separator := sep }) ≠ [] := by
  intro h
  have := h (fun p => if p = c!"chains/*updated.yaml" then [c!"chains/a.updated.yaml"] else []) _ (by decide) (by decide)
    rfl [(c!"d.ini", some c!"chains/a.", false)] (by decide +kernel) _ (List.mem_singleton_self _) _ rfl
  revert this
  decide +kernel

/-- a directory with the one file `a*.paramnames` -/
def loopGlob (p : Str) : List Str := if p = c!"a*.paramnames" then [c!"a*.paramnames"] else []

/-- A file whose name has a wildcard character makes the script call itself without end. -/
theorem wildcard_loop_fails : ¬ ∀ (glob : Str → List Str) (r : Str), ∃ n, (runs (fun _ => true) glob c!"d.ini" n
    ⟨some c!"my.ini", some r⟩).isSome := by
  intro h
  obtain ⟨n, hn⟩ := h loopGlob c!"a*"
  have : ∀ n, runs (fun _ => true) loopGlob c!"d.ini" n
      ⟨some c!"my.ini", some c!"a*"⟩ = none := by
    intro n
    induction n with
    | zero => rfl
    | succ n ih =>
      have e : resolve (fun _ => true) loopGlob c!"d.ini"
          ⟨some c!"my.ini", some c!"a*"⟩ = .each [⟨some c!"my.ini", some c!"a*"⟩] := by decide +kernel
      rw [runs, e]
      simp only [List.mapM_cons, ih]
      rfl
  rw [this n] at hn
  cases hn

/-! ### choosing parameters -/

theorem strip_empty {l : Str} (h : strip l = []) : Blank l := by
  intro c hc
  by_contra hw
  rw [Bool.not_eq_true] at hw
  have h1 : c ∈ lstrip l := by
    unfold lstrip
    clear h
    induction l with
    | nil => cases hc
    | cons d l ih =>
      rw [List.dropWhile_cons]
      rcases List.mem_cons.mp hc with rfl | hc
      · simp [hw]
      · split
        · exact ih hc
        · exact List.mem_cons_of_mem _ hc
  have h2 : ∀ s : Str, c ∈ s → c ∈ s.dropWhile isWs := by
    intro s
    induction s with
    | nil => exact fun h => h
    | cons d s ih =>
      intro hc
      rw [List.dropWhile_cons]
      rcases List.mem_cons.mp hc with rfl | hc
      · simp [hw]
      · split
        · exact ih hc
        · exact List.mem_cons_of_mem _ hc
  have : c ∈ strip l := by
    rw [strip, rstrip, List.mem_reverse]
    exact h2 _ (List.mem_reverse.mpr h1)
  rw [h] at this
  cases this

/-- A blank setting means all parameters. -/
theorem blank_all (ps : List Info) {l : Str} (h : Blank l) : parList ps l = ps.map (·.name) := by
  have : strip l = [] := by
    by_contra hne
    obtain ⟨c, t, e⟩ := List.exists_cons_of_ne_nil hne
    have ht := trim_strip l
    rw [e] at ht
    have hc : c ∈ l := by
      have h1 : c ∈ strip l := by rw [e]; simp
      rw [strip, rstrip, List.mem_reverse] at h1
      have h2 := (List.dropWhile_sublist _).subset h1
      rw [List.mem_reverse] at h2
      exact (List.dropWhile_sublist _).subset h2
    have := ht.1 c rfl
    rw [h c hc] at this
    cases this
  simp [-String.reduceToList, parList, this]

/-- Which names a list of words selects. -/
theorem parList_mem (ps : List Info) (ws : List Str) (hne : ws ≠ []) (h : ∀ w ∈ ws, Token w) (x : Str) :
    x ∈ parList ps (join [' '] ws) ↔
      ∃ w ∈ ws, (('*' ∈ w ∨ '?' ∈ w) ∧ (∃ p ∈ ps, p.name = x ∧ fnmatchcase p.name w = true)) ∨
        (¬ ('*' ∈ w ∨ '?' ∈ w) ∧ x = w ∧ ∃ p ∈ ps, p.name = w ∨ w ∈ p.renames) := by
  have hs : ¬ (strip (join [' '] ws)).isEmpty = true := by
    intro he
    have := splitWs_blank (strip_empty (List.isEmpty_iff.mp he))
    have e2 := splitWs_join (tail := []) h (by intro c hc; cases hc)
    rw [List.append_nil, this] at e2
    exact hne e2.symm
  have e2 := splitWs_join (tail := []) h (by intro c hc; cases hc)
  rw [List.append_nil] at e2
  rw [parList, if_neg hs, e2, List.mem_flatMap]
  refine exists_congr fun w => and_congr_right fun _ => ?_
  unfold wordPars
  by_cases hw : '*' ∈ w ∨ '?' ∈ w
  · rw [if_pos (wild_iff.mpr hw)]
    simp [getMatches, hw, and_assoc]
    constructor
    · rintro ⟨p, h1, h2, rfl⟩; exact ⟨p, h1, rfl, h2⟩
    · rintro ⟨p, h1, rfl, h2⟩; exact ⟨p, h1, h2, rfl⟩
  · rw [if_neg (by rw [wild_iff]; exact hw)]
    have hk : (parWithName ps w).isSome = true ↔ ∃ p ∈ ps, p.name = w ∨ w ∈ p.renames := by
      rw [parWithName, List.find?_isSome]
      simp [matchesName, aliasesOf, Dict.get?]
    by_cases hp : ∃ p ∈ ps, p.name = w ∨ w ∈ p.renames
    · rw [if_pos (hk.mpr hp)]
      simp only [hw, false_and, false_or, not_false_eq_true, true_and, List.mem_singleton]
      exact ⟨fun h => ⟨h, hp⟩, fun h => h.1⟩
    · rw [if_neg (by rw [hk]; exact hp)]
      simp [hw, hp]

/-- Names that are parameters are kept in the order given. -/
theorem parList_names (ps : List Info) (ws : List Str) (hne : ws ≠ []) (h : ∀ w ∈ ws, Token w)
    (hk : ∀ w ∈ ws, '*' ∉ w ∧ '?' ∉ w ∧ ∃ p ∈ ps, p.name = w) : parList ps (join [' '] ws) = ws := by
  have e2 := splitWs_join (tail := []) h (by intro c hc; cases hc)
  rw [List.append_nil] at e2
  have hs : ¬ (strip (join [' '] ws)).isEmpty = true := by
    intro he
    rw [splitWs_blank (strip_empty (List.isEmpty_iff.mp he))] at e2
    exact hne e2.symm
  rw [parList, if_neg hs, e2]
  clear e2 hs h hne
  induction ws with
  | nil => rfl
  | cons w ws ih =>
    obtain ⟨h1, h2, p, hp, hn⟩ := hk w List.mem_cons_self
    have : wordPars ps w = [w] := by
      rw [wordPars, if_neg (by rw [wild_iff]; tauto), if_pos]
      rw [parWithName, List.find?_isSome]
      exact ⟨p, hp, by simp [matchesName, hn]⟩
    rw [List.flatMap_cons, this, ih fun x hx => hk x (List.mem_cons_of_mem _ hx)]
    rfl

/-- A pattern selects in the order of the parameters, and words are taken one after the other. -/
theorem parList_order (ps : List Info) (ws : List Str) (hne : ws ≠ []) (h : ∀ w ∈ ws, Token w) :
    parList ps (join [' '] ws) = (ws.map fun w => parList ps w).flatten ∧
    ∀ w ∈ ws, ('*' ∈ w ∨ '?' ∈ w) → (parList ps w).Sublist (ps.map (·.name)) := by
  have hone : ∀ w ∈ ws, parList ps w = wordPars ps w := by
    intro w hw
    have e2 := splitWs_join (l := [w]) (tail := []) (by simpa using h w hw) (by intro c hc; cases hc)
    rw [List.append_nil] at e2
    change splitWs w = [w] at e2
    have hs : ¬ (strip w).isEmpty = true := by
      intro he
      rw [splitWs_blank (strip_empty (List.isEmpty_iff.mp he))] at e2
      cases e2
    rw [parList, if_neg hs, e2]
    simp
  have e2 := splitWs_join (tail := []) h (by intro c hc; cases hc)
  rw [List.append_nil] at e2
  have hs : ¬ (strip (join [' '] ws)).isEmpty = true := by
    intro he
    rw [splitWs_blank (strip_empty (List.isEmpty_iff.mp he))] at e2
    exact hne e2.symm
  constructor
  · rw [parList, if_neg hs, e2, List.flatMap_def]
    congr 1
    exact (List.map_congr_left hone).symm
  · intro w hw hwild
    rw [hone w hw, wordPars, if_pos (wild_iff.mpr hwild)]
    exact List.filter_sublist.map _

/-- A plot of fixed dimension is made exactly if the setting gives that many parameters. -/
theorem num_spec (ps : List Info) (l : Str) (k : Nat) :
    filterParList ps l none = some (parList ps l) ∧
    ((parList ps l).length = k → filterParList ps l (some k) = some (parList ps l)) ∧
    ((parList ps l).length ≠ k → filterParList ps l (some k) = none) := by
  simp [-String.reduceToList, filterParList]

/-- Every custom plot has two parameters, in the order of the settings. -/
theorem custom2D_spec (ps : List Info) (lines : List Str) :
    (∀ q ∈ custom2D ps lines, ∃ a b, q = [a, b]) ∧
    custom2D ps lines = (lines.map (parList ps)).filter (·.length = 2) := by
  have e : custom2D ps lines = (lines.map (parList ps)).filter (·.length = 2) := by
    unfold custom2D
    induction lines with
    | nil => rfl
    | cons l ls ih =>
      rw [List.filterMap_cons, List.map_cons, List.filter_cons, ih]
      by_cases hl : (parList ps l).length = 2
      · simp [-String.reduceToList, filterParList, hl]
      · simp [-String.reduceToList, filterParList, hl]
  refine ⟨?_, e⟩
  intro q hq
  rw [e, List.mem_filter] at hq
  have h2 : q.length = 2 := by simpa using hq.2
  match q, h2 with
  | [a, b], _ => exact ⟨a, b, rfl⟩

/-- There is a triangle plot exactly if two or more parameters are selected, of all of them. -/
theorem triangle_spec (ps : List Info) (l : Str) :
    (2 ≤ (parList ps l).length → triangle ps l = some (parList ps l)) ∧
    ((parList ps l).length < 2 → triangle ps l = none) := by
  unfold triangle
  constructor
  · intro h; simp only; rw [if_pos (by omega)]
  · intro h; simp only; rw [if_neg (by omega)]

/-- parameters of the examples -/
def exPs : List Info := [{ name := c!"omegam" }, { name := c!"omegal" }, { name := c!"H0", renames := [c!"hubble"] }]

example : parList exPs c!"H0 omega*" = [c!"H0", c!"omegam", c!"omegal"] := by decide +kernel
example : filterParList exPs c!"H0 tau" (some 2) = none := by decide +kernel
example : custom2D exPs [c!"H0 omegam", c!"omega?", c!"tau H0"] = [[c!"H0", c!"omegam"], [c!"omegam", c!"omegal"]] := by
  decide +kernel

/-- A parameter named twice, once by a pattern, is listed twice: the triangle plot has it two times. -/
theorem twice_fails : ¬ ∀ (ps : List Info) (l : Str), (ps.map (·.name)).Nodup → (parList ps l).Nodup := by
  intro h
  have := h exPs c!"omega* omegam" (by decide)
  revert this
  decide +kernel

/-- A name that is no parameter is left out of a triangle plot without a message: the plot is of the others. -/
theorem missing_silent_fails : ¬ ∀ (ps : List Info) (ws : List Str) (l : List Str), (∀ w ∈ ws, Token w) →
    triangle ps (join [' '] ws) = some l → ∀ w ∈ ws, '*' ∉ w → '?' ∉ w → w ∈ l := by
  intro h
  have := h exPs [c!"omegam", c!"H0", c!"tau"] [c!"omegam", c!"H0"] (by decide) (by decide +kernel) c!"tau" (by simp)
    (by decide) (by decide)
  revert this
  decide

end Verif.CommandLine
