import Verif.Model.NameLists
import Verif.Props.ParamNames
import Verif.Props.Tight5
import Verif.Props.Chains

/-!
# C221, C222: making lists of parameters
-/

namespace Verif.NameLists
open Verif.Py Verif.ParamNames

/-! ## Kinds of parameters -/

/-- **C221**: every parameter is counted as derived or as running, and is in exactly one of the two lists of names, in the order of the list -/
theorem kinds (ps : List Info) : numDerived ps + numNonDerived ps = ps.length ∧
    (getDerivedNames ps).length = numDerived ps ∧ (getRunningNames ps).length = numNonDerived ps ∧
    (getDerivedNames ps).Sublist (list ps) ∧ (getRunningNames ps).Sublist (list ps) ∧
    ∀ n, (getDerivedNames ps).count n + (getRunningNames ps).count n = (list ps).count n := by
  refine ⟨?_, by simp [getDerivedNames, numDerived], by simp [getRunningNames, numNonDerived], List.filter_sublist.map _, List.filter_sublist.map _, ?_⟩
  · induction ps with
    | nil => rfl
    | cons p ps ih =>
      unfold numDerived numNonDerived at *
      cases h : p.isDerived <;> simp [h] <;> omega
  · intro n
    induction ps with
    | nil => rfl
    | cons p ps ih =>
      unfold getDerivedNames getRunningNames list at *
      cases h : p.isDerived <;> simp [h, List.count_cons] <;> omega

example : getDerivedNames [{ name := c!"a" }, { name := c!"H0", isDerived := true }, { name := c!"b" }] = [c!"H0"] ∧
    getRunningNames [{ name := c!"a" }, { name := c!"H0", isDerived := true }, { name := c!"b" }] = [c!"a", c!"b"] := by decide +kernel

/-! ## Default names -/

/-- **C221**: default names are different from each other and count from one; none is derived -/
theorem setDefault_spec (n : Nat) : (list (setDefault n)).Nodup ∧ (setDefault n).length = n ∧ numDerived (setDefault n) = 0 ∧
    ∀ i, i < n → numberOfName (setDefault n) (c!"param" ++ strNat (i + 1)) = i := by
  have hl : list (setDefault n) = (List.range n).map (fun i => c!"param" ++ strNat (i + 1)) := by
    unfold list setDefault; rw [List.map_map]; rfl
  have hnd : (list (setDefault n)).Nodup := by
    rw [hl]
    refine List.Nodup.map ?_ List.nodup_range
    intro i j h
    have := strNat_injective (List.append_cancel_left h)
    omega
  refine ⟨hnd, by simp [setDefault], ?_, ?_⟩
  · unfold numDerived setDefault
    rw [List.length_eq_zero_iff, List.filter_eq_nil_iff]
    intro p hp
    obtain ⟨i, _, rfl⟩ := List.mem_map.mp hp
    simp
  · intro i hi
    have key : ∀ (m k : Nat), k ≤ i → i < k + m → numberFrom k (c!"param" ++ strNat (i + 1))
        ((List.range' k m).map (fun i => ({ name := c!"param" ++ strNat (i + 1), label := c!"p_{" ++ strNat (i + 1) ++ c!"}" } : Info))) = i := by
      intro m
      induction m with
      | zero => intro k h1 h2; omega
      | succ m ih =>
        intro k h1 h2
        rw [List.range'_succ, List.map_cons, numberFrom]
        by_cases h : k = i
        · rw [if_pos (by rw [h])]; rw [h]
        · rw [if_neg (by
            intro e
            have := strNat_injective (List.append_cancel_left e)
            omega)]
          have := ih (k + 1) (by omega) (by omega)
          rw [← this]; rfl
    have := key n 0 (by omega) (by omega)
    unfold numberOfName setDefault
    rw [List.range_eq_range']
    exact this

example : numberOfName (setDefault 12) c!"param11" = 10 ∧ numDerived (setDefault 12) = 0 := by decide +kernel

example : list (setDefault 3) = [c!"param1", c!"param2", c!"param3"] := by decide +kernel

/-! ## Names as arguments -/

/-- **C221**: from names with a star for derived ones come the parameters with these names and kinds, in order, and each is labelled by its name -/
theorem setWithNames_spec : ∀ (l : List (Str × Bool)), (∀ n ∈ l, NameOK n.1) →
    ∃ ps, setWithNames (l.map (fun n => n.1 ++ (if n.2 then c!"*" else []))) = .ok ps ∧ ps.map (fun p => (p.name, p.isDerived)) = l ∧ ps.map getLabel = l.map (·.1)
  | [], _ => ⟨[], rfl, rfl, rfl⟩
  | n :: l, h => by
    obtain ⟨ps, h1, h2, h3⟩ := setWithNames_spec l (fun m hm => h m (List.mem_cons_of_mem _ hm))
    have hn := h n (List.mem_cons_self ..)
    have ho := setFromString_name (p := { name := n.1, isDerived := n.2 }) (q := {}) hn rfl (n.1 ++ (if n.2 then c!"*" else [])) [] (by
      have := nameTag_ok (p := { name := n.1, isDerived := n.2 }) hn
      exact splitWs1_one this.1 this.2)
    refine ⟨{ name := n.1, isDerived := n.2 } :: ps, ?_, ?_, ?_⟩
    · rw [List.map_cons, setWithNames]
      unfold ofLine
      rw [ho]
      dsimp only
      rw [h1]
    · rw [List.map_cons, h2]
    · rw [List.map_cons, h3]; rfl

example : setWithNames [c!"omegabh2", c!"H0*"] = .ok [{ name := c!"omegabh2" }, { name := c!"H0", isDerived := true }] := by decide +kernel

/-! ## The constructor -/

/-- what setting labels must not touch -/
def core (p : Info) : Str × Bool × Str × List Str := (p.name, p.isDerived, p.comment, p.renames)

theorem updateFirst_core (f : Info → Info) (q : Info → Bool) (h : ∀ p, core (f p) = core p) : ∀ ps, (updateFirst f q ps).map core = ps.map core
  | [] => rfl
  | p :: ps => by
    rw [updateFirst]
    split
    · rw [List.map_cons, List.map_cons, h]
    · rw [List.map_cons, List.map_cons, updateFirst_core f q h ps]

theorem setLabelsFrom_core : ∀ (q ps : List Info), (setLabelsFrom ps q).map core = ps.map core
  | [], ps => by unfold setLabelsFrom; rw [setLabelsAndDerived]
  | a :: q, ps => by
    unfold setLabelsFrom
    rw [setLabelsAndDerived]
    have := setLabelsFrom_core q (updateFirst (fun p => { p with label := a.label, isDerived := if false = true then a.isDerived else p.isDerived }) (matchesName a.name []) ps)
    unfold setLabelsFrom at this
    rw [this]
    exact updateFirst_core (fun p => { p with label := a.label, isDerived := if false = true then a.isDerived else p.isDerived }) _ (fun p => rfl) ps

theorem setLabels_core : ∀ (ps : List Info) (ls : List Str), (setLabels ps ls).map core = ps.map core
  | [], [] => rfl
  | [], _ :: _ => rfl
  | _ :: _, [] => rfl
  | p :: ps, l :: ls => by rw [setLabels, List.map_cons, List.map_cons, setLabels_core ps ls]; rfl

theorem setLabels_get : ∀ (ps : List Info) (ls : List Str) (i : Nat) (p : Info), ps[i]? = some p →
    (setLabels ps ls)[i]? = some { p with label := (ls[i]?).getD p.label }
  | [], _, _, _, h => by simp at h
  | q :: ps, [], i, p, h => by rw [setLabels, h]; rfl; simp
  | q :: ps, l :: ls, 0, p, h => by
    simp only [List.getElem?_cons_zero, Option.some.injEq] at h
    subst h; rfl
  | q :: ps, l :: ls, i + 1, p, h => by
    rw [setLabels, List.getElem?_cons_succ, List.getElem?_cons_succ]
    exact setLabels_get ps ls i p (by simpa using h)

/-- **C221**: what a list is made of: the parameters of the file if there is one, else the names given, else the default names; labels in the other
file or in the argument change nothing but labels -/
theorem construct_core (a : Args) (ps : List Info) (h : construct a = .ok ps) :
    (∀ q, a.file = some (.ok q) → ps.map core = q.map core) ∧
    (a.file = none → ∀ ns, a.names = some ns → ∃ q, setWithNames ns = .ok q ∧ ps.map core = q.map core) ∧
    (a.file = none → a.names = none → ps.map core = (setDefault a.default).map core) := by
  unfold construct at h
  cases h1 : fromArgs a with
  | error e => rw [h1] at h; cases h
  | ok p1 =>
    rw [h1] at h
    dsimp only at h
    cases h2 : withFile a.file p1 with
    | error e => rw [h2] at h; cases h
    | ok p2 =>
      rw [h2] at h
      dsimp only at h
      cases h3 : withOverride a.override p2 with
      | error e => rw [h3] at h; cases h
      | ok p3 =>
        rw [h3] at h
        dsimp only at h
        have e3 : p3.map core = p2.map core := by
          unfold withOverride at h3
          cases ho : a.override with
          | none => rw [ho] at h3; cases h3; rfl
          | some r =>
            rw [ho] at h3
            cases r with
            | error e => cases h3
            | ok q => cases h3; exact setLabelsFrom_core q p2
        have e4 : ps.map core = p2.map core := by
          rw [← e3]
          cases hl : a.labels with
          | none => rw [hl] at h; cases h; rfl
          | some ls => rw [hl] at h; cases h; exact setLabels_core p3 ls
        refine ⟨?_, ?_, ?_⟩
        · intro q hq
          rw [hq] at h2
          cases h2; exact e4
        · intro hf ns hns
          rw [hf] at h2
          cases h2
          unfold fromArgs at h1
          rw [hns] at h1
          exact ⟨_, h1, e4⟩
        · intro hf hns
          rw [hf] at h2
          cases h2
          unfold fromArgs at h1
          rw [hns] at h1
          cases h1
          rw [e4]
          by_cases hd : a.default = 0
          · rw [if_pos hd, hd]; rfl
          · rw [if_neg hd]

/-- the label of the last parameter of that name in a list -/
def lastLabel (q : List Info) (p : Info) : Str := ((q.filter (fun r => r.name = p.name)).getLast?.map (·.label)).getD p.label

theorem setLabelsFrom_labels : ∀ (q ps : List Info), (∀ p ∈ ps, p.renames = []) → (list ps).Nodup →
    setLabelsFrom ps q = ps.map (fun p => { p with label := lastLabel q p })
  | [], ps, _, _ => by
    unfold setLabelsFrom
    rw [setLabelsAndDerived]
    exact ((List.map_congr_left fun p _ => rfl).trans (List.map_id _)).symm
  | a :: q, ps, hr, hn => by
    unfold setLabelsFrom
    rw [setLabelsAndDerived, updateFirst_name _ ps a.name hr hn]
    have hl : (ps.map fun p => if p.name = a.name then ({ p with label := a.label, isDerived := if false = true then a.isDerived else p.isDerived } : Info) else p).map (·.name) = ps.map (·.name) := by
      rw [List.map_map]
      refine List.map_congr_left fun p _ => ?_
      simp only [Function.comp]
      split_ifs <;> rfl
    have := setLabelsFrom_labels q (ps.map fun p => if p.name = a.name then ({ p with label := a.label, isDerived := if false = true then a.isDerived else p.isDerived } : Info) else p)
      (by
        intro p hp
        obtain ⟨p', hp', rfl⟩ := List.mem_map.1 hp
        split_ifs <;> exact hr p' hp') (by unfold list; rw [hl]; exact hn)
    unfold setLabelsFrom at this
    rw [this, List.map_map]
    refine List.map_congr_left fun p _ => ?_
    simp only [Function.comp]
    by_cases h : p.name = a.name
    · rw [if_pos h]
      have : lastLabel (a :: q) p = lastLabel q { p with label := a.label, isDerived := if false = true then a.isDerived else p.isDerived } := by
        unfold lastLabel
        rw [List.filter_cons_of_pos (by simp [h])]
        dsimp only
        cases q.filter (fun r => decide (r.name = p.name)) with
        | nil => rfl
        | cons b t => simp [List.getLast?_cons]
      rw [this]; rfl
    · rw [if_neg h]
      have : lastLabel (a :: q) p = lastLabel q p := by
        unfold lastLabel
        rw [List.filter_cons_of_neg (by simpa using fun e : a.name = p.name => h e.symm)]
      rw [this]

/-- **C221**: the labels: those of the argument come first, position by position, then those of the other file, name by name, then their own -/
theorem construct_labels (names : List Str) (q : List Info) (ls : Option (List Str)) (ps p0 : List Info) (h0 : setWithNames names = .ok p0)
    (hr : ∀ p ∈ p0, p.renames = []) (hn : (list p0).Nodup) (h : construct { names := some names, override := some (.ok q), labels := ls } = .ok ps)
    (i : Nat) (p : Info) (hp : p0[i]? = some p) : ps[i]? = some { p with label := ((ls.getD [])[i]?).getD (lastLabel q p) } := by
  unfold construct fromArgs withFile withOverride at h
  dsimp only at h
  rw [h0] at h
  dsimp only at h
  rw [setLabelsFrom_labels q p0 hr hn] at h
  have hm : (p0.map (fun p => ({ p with label := lastLabel q p } : Info)))[i]? = some { p with label := lastLabel q p } := by
    rw [List.getElem?_map, hp]; rfl
  cases ls with
  | none => cases h; rw [hm]; rfl
  | some ls =>
    cases h
    rw [setLabels_get _ ls i _ hm]
    rfl

example : construct { names := some [c!"a", c!"b", c!"c"], override := some (.ok [{ name := c!"b", label := c!"\\beta" }, { name := c!"a", label := c!"\\alpha" }]), labels := some [c!"A"] } =
    .ok [{ name := c!"a", label := c!"A" }, { name := c!"b", label := c!"\\beta" }, { name := c!"c" }] := by decide +kernel

/-! ## Adding parameters -/

theorem numberFrom_append (i : Int) (name : Str) : ∀ (ps qs : List Info) (k : Int), i = k → name ∉ list ps → numberFrom k name (ps ++ qs) = numberFrom (k + ps.length) name qs
  | [], qs, k, _, _ => by simp
  | p :: ps, qs, k, _, h => by
    have hne : p.name ≠ name := fun e => h (by simp [list, e])
    rw [List.cons_append, numberFrom, if_neg hne, numberFrom_append (k + 1) name ps qs (k + 1) rfl (fun hm => h (by
      unfold list at *; rw [List.map_cons]; exact List.mem_cons_of_mem _ hm))]
    congr 1
    rw [List.length_cons]; push_cast; ring

/-- **C221**: a new parameter comes last, is derived unless stated otherwise, is labelled by its name if there is no label, and is found at the end; the others stay -/
theorem addDerived_spec (ps qs : List Info) (name label comment : Str) (d : Option Bool) (r : List Str) (h : addDerived ps name label comment d r = .ok qs) :
    ∃ p, qs = ps ++ [p] ∧ p.name = name ∧ (p.isDerived = true ↔ d ≠ some false) ∧ getLabel p = (if label = [] then name else label) ∧
      p.comment = comment ∧ p.renames = r ∧ (name ∉ list ps → numberOfName qs name = ps.length) := by
  unfold addDerived newInfo setName at h
  by_cases hb : name.any badNameChar
  · rw [if_pos hb] at h; cases h
  · rw [if_neg hb] at h
    cases h
    refine ⟨_, rfl, rfl, ?_, ?_, rfl, rfl, ?_⟩
    · cases d with
      | none => simp
      | some b => cases b <;> simp
    · unfold getLabel
      by_cases hl : label = []
      · simp only [hl, if_true]
        split <;> simp_all
      · simp [hl]
    · intro hn
      unfold numberOfName
      rw [numberFrom_append 0 name ps _ 0 rfl hn, numberFrom, if_pos rfl]
      simp

example : addDerived [{ name := c!"a" }] c!"H0" c!"H_0" c!"rate" (some false) [c!"h"] = .ok [{ name := c!"a" }, { name := c!"H0", label := c!"H_0", comment := c!"rate", renames := [c!"h"] }] := by decide +kernel

/-- **C221**: names that cannot be written are refused -/
theorem addDerived_refused (ps : List Info) (name label comment : Str) (d : Option Bool) (r : List Str) :
    (∃ e, addDerived ps name label comment d r = .error e) ↔ ∃ c ∈ name, c = '*' ∨ c = '?' ∨ c = ' ' ∨ c = '\t' := by
  unfold addDerived newInfo setName
  by_cases hb : name.any badNameChar
  · rw [if_pos hb]
    refine ⟨fun _ => ?_, fun _ => ⟨_, rfl⟩⟩
    obtain ⟨c, hc, h⟩ := List.any_eq_true.mp hb
    refine ⟨c, hc, ?_⟩
    simpa [badNameChar, or_assoc] using h
  · rw [if_neg hb]
    constructor
    · rintro ⟨e, h⟩; cases h
    · rintro ⟨c, hc, h⟩
      refine absurd (List.any_eq_true.mpr ⟨c, hc, ?_⟩) hb
      simpa [badNameChar, or_assoc] using h

example : addDerived [{ name := c!"a" }] c!"H0" [] [] none [] = .ok [{ name := c!"a" }, { name := c!"H0", label := c!"H0", isDerived := true }] := by decide +kernel

/-! ## Columns of names -/

/-- **C221**: all names are written to the same width, of at least ten, with at least one space at the end, and only spaces are added -/
theorem parForm_spec (ps : List Info) (h : ps ≠ []) : ∃ w, parWidth ps = some w ∧ 10 ≤ w ∧ ∀ n ∈ list ps, ∃ k, parForm ps n = some (n ++ List.replicate (k + 1) ' ') ∧ n.length + (k + 1) = w := by
  obtain ⟨m, hm⟩ : ∃ m, maxNameLen ps = some m := by
    unfold maxNameLen
    cases ps with
    | nil => exact absurd rfl h
    | cons p ps => exact ⟨_, rfl⟩
  have hle : ∀ n ∈ list ps, n.length ≤ m := by
    intro n hn
    unfold maxNameLen at hm
    obtain ⟨p, hp, rfl⟩ := List.mem_map.mp hn
    exact (List.max?_eq_some_iff.mp hm).2 _ (List.mem_map.mpr ⟨p, hp, rfl⟩)
  have hw : parWidth ps = some (max 9 m + 1) := by unfold parWidth; rw [hm]; rfl
  refine ⟨max 9 m + 1, hw, by omega, ?_⟩
  intro n hn
  have := hle n hn
  refine ⟨max 9 m - n.length, ?_, by omega⟩
  unfold parForm
  rw [hw, Option.map_some, show max 9 m + 1 - n.length = max 9 m - n.length + 1 by omega]

example : parForm [{ name := c!"a" }, { name := c!"omegabh2_long" }] c!"a" = some c!"a             " := by decide +kernel

/-- **C221**: the labels for plots: the label between dollars, or the bare name -/
theorem latexLabel_spec (p : Info) : (p.label = [] → latexLabel p = p.name ∧ getLabel p = p.name) ∧
    (p.label ≠ [] → latexLabel p = '$' :: (p.label ++ ['$']) ∧ getLabel p = p.label) := by
  constructor
  · intro h; unfold latexLabel getLabel; rw [if_pos h, if_pos h]; exact ⟨rfl, rfl⟩
  · intro h; unfold latexLabel getLabel; rw [if_neg h, if_neg h]; exact ⟨rfl, rfl⟩

example : latexLabel { name := c!"H0", label := c!"H_0" } = c!"$H_0$" ∧ latexLabel { name := c!"H0" } = c!"H0" := by decide +kernel

/-- **C221**: names without spaces can be read back from the line of names -/
theorem listString_split (ps : List Info) (h : ps ≠ []) (hs : ∀ p ∈ ps, ' ' ∉ p.name) : splitChar ' ' (listString ps) = list ps := by
  unfold listString
  have key : ∀ l : List Str, l ≠ [] → (∀ n ∈ l, ' ' ∉ n) → splitChar ' ' (join c!" " l) = l := by
    intro l
    induction l with
    | nil => intro h _; exact absurd rfl h
    | cons n l ih =>
      intro _ hn
      have one : ∀ (n t : Str), ' ' ∉ n → splitChar ' ' (n ++ ' ' :: t) = n :: splitChar ' ' t := by
        intro n t
        induction n with
        | nil => intro _; simp [splitChar]
        | cons c n ih2 =>
          intro hc
          rw [List.cons_append, splitChar, if_neg (by intro e; rw [beq_iff_eq] at e; exact hc (by simp [e])), ih2 (fun e => hc (by simp [e]))]
      have end' : ∀ n : Str, ' ' ∉ n → splitChar ' ' n = [n] := by
        intro n
        induction n with
        | nil => intro _; rfl
        | cons c n ih2 =>
          intro hc
          rw [splitChar, if_neg (by intro e; rw [beq_iff_eq] at e; exact hc (by simp [e])), ih2 (fun e => hc (by simp [e]))]
      cases l with
      | nil => exact end' n (hn n (by simp))
      | cons m l =>
        have e : join c!" " (n :: m :: l) = n ++ ' ' :: join c!" " (m :: l) := by rw [join, List.append_assoc]; rfl
        rw [e, one n _ (hn n (by simp)), ih (by simp) (fun x hx => hn x (List.mem_cons_of_mem _ hx))]
  refine key _ (by unfold list; simpa using h) ?_
  intro n hn
  obtain ⟨p, hp, rfl⟩ := List.mem_map.mp hn
  exact hs p hp

/-! ## What fails -/

/-- a name is compared with that of the parameter -/
def NameCompared : Prop := ∀ (p q : Info) (n : Str), (nameEquals p (.str n) = true ↔ p.name = n) ∧ (nameEquals p (.info q) = true ↔ p.name = q.name)

/-- **C222 fails**: `nameEquals` compares its argument with itself (paramnames.py:93, 95), so every parameter has every name, and no parameter has the name of a
parameter, not even its own -/
theorem nameEquals_fails : ¬ NameCompared := by
  intro h
  have := (h { name := c!"a" } { name := c!"a" } c!"b").1.mp rfl
  revert this; decide

theorem nameEquals_self : nameEquals { name := c!"a" } (.info { name := c!"a" }) = false := rfl

example : nameEquals { name := c!"a" } (.str c!"b") = true := by decide +kernel

/-- names with white space are refused, as documented in `setName` -/
def SpacesRefused : Prop := ∀ (names : List Str), (∃ n ∈ names, ' ' ∈ n) → ∃ e, setWithNames names = .error e

/-- **C222 fails**: names given as a list are read as lines of a file (paramnames.py:184), so that what follows a space silently becomes the label -/
theorem names_space_fails : ¬ SpacesRefused := by
  intro h
  obtain ⟨e, he⟩ := h [c!"dark energy", c!"H0"] ⟨_, List.mem_cons_self .., by decide⟩
  have : setWithNames [c!"dark energy", c!"H0"] = .ok [{ name := c!"dark", label := c!"energy" }, { name := c!"H0" }] := by decide +kernel
  rw [this] at he; cases he

/-- parameters made from a name alone have the name as label -/
def LabelsFilled : Prop := ∀ (n : Str) (p : Info), NameOK n → setWithNames [n] = .ok [p] → p.label = n

/-- **C222 fails**: the default label is set before the name is known (paramnames.py:83, 88-89), so that `labels()` of a list made from names is a list of empty
texts, while `ParamInfo(name=...)` has its name as label -/
theorem label_default_fails : ¬ LabelsFilled := by
  intro h
  have := h c!"H0" { name := c!"H0" } ⟨by decide, by decide, by decide⟩ (by decide +kernel)
  revert this; decide

theorem newInfo_label (n c : Str) (d : Bool) (r : List Str) (p : Info) (h : newInfo n [] c d r = .ok p) : p.label = n := by
  unfold newInfo setName at h
  split at h
  · cases h
  · rename_i q hq
    split at hq
    · cases hq
    · cases h; rfl

example : newInfo c!"H0" [] [] true [] = .ok { name := c!"H0", label := c!"H0", isDerived := true } := by decide +kernel

/-- a new parameter can be found -/
def AddedFound : Prop := ∀ (ps qs : List Info) (name : Str), addDerived ps name [] [] none [] = .ok qs → numberOfName qs name = ps.length

/-- **C222 fails**: `addDerived` accepts a name that is taken (paramnames.py:352-364); the name goes on meaning the old parameter -/
theorem add_existing_fails : ¬ AddedFound := by
  intro h
  have := h [{ name := c!"a" }] [{ name := c!"a" }, { name := c!"a", label := c!"a", isDerived := true }] c!"a" (by decide +kernel)
  revert this; decide +kernel

/-- convergence is tested for the parameters that are not derived -/
def RubinSampled : Prop := ∀ ps : List Info, rubinNames ps none = getRunningNames ps

/-- **C222 fails**: the Gelman-Rubin test takes as many parameters from the start of the list as there are ones that are not derived (chains.py:1408-1410): with a
derived parameter before others it tests that one and leaves out the last -/
theorem rubin_columns_fails : ¬ RubinSampled := by
  intro h
  have := h [{ name := c!"H0", isDerived := true }, { name := c!"a" }]
  revert this; decide +kernel

/-- **C222**: with the derived parameters at the end it tests the ones that are not derived -/
theorem rubin_columns_partial (a b : List Info) (ha : ∀ p ∈ a, p.isDerived = false) (hb : ∀ p ∈ b, p.isDerived = true) :
    rubinNames (a ++ b) none = getRunningNames (a ++ b) ∧ getRunningNames (a ++ b) = list a := by
  have h1 : (a ++ b).filter (fun p => !p.isDerived) = a := by
    rw [List.filter_append, List.filter_eq_self.mpr (fun p hp => by simp [ha p hp]), List.filter_eq_nil_iff.mpr (fun p hp => by simp [hb p hp]), List.append_nil]
  unfold rubinNames getRunningNames numNonDerived list
  rw [h1]
  refine ⟨?_, rfl⟩
  dsimp only
  rw [List.map_append, List.take_append_of_le_length (by simp), List.take_of_length_le (by simp)]

example : rubinNames [{ name := c!"a" }, { name := c!"b" }, { name := c!"H0", isDerived := true }] none = [c!"a", c!"b"] := by decide +kernel

/-- a number of parameters that is asked for is used -/
theorem rubin_given (ps : List Info) (k : Nat) : rubinNames ps (some (k + 1)) = (list ps).take (k + 1) := rfl

end Verif.NameLists
