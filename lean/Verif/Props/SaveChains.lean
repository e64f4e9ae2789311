import Verif.Model.SaveChains
import Verif.Props.ChainFiles
import Verif.Props.ReadChains
import Verif.Props.SampleDict

/-!
# C237, C238: chains saved as text are read back
-/

namespace Verif.SaveChains
open Verif.Py Verif.Py.Path Verif.Py.Np Verif.Thin Verif.Samples Verif.Chains Verif.ChainFiles
set_option linter.unusedSectionVars false

variable {K : Type} [Field K] [LinearOrder K] [FloorRing K]

/-! ## Specification -/

/-- a record after printing and reading; likelihoods that were missing are zero -/
def outRow (rnd : K → K) (hasL : Bool) (r : Row K) : Row K :=
  ⟨r.sample.map rnd, rnd r.weight, rnd (if hasL then r.loglike else 0)⟩

/-- all records have `n` parameters -/
def Wide (n : Nat) (seg : List (Row K)) : Prop := ∀ r ∈ seg, r.sample.length = n

/-- the file holds these records -/
def Holds (t : Arr2 K) (n : Nat) (seg : List (Row K)) : Prop := Table t n ∧ t.rows.map lineRow = seg

/-! ## One chain -/

theorem lineRow_line (rnd : K → K) (w l : K) (r : List K) : lineRow (line rnd w l r) = ⟨r.map rnd, rnd w, rnd l⟩ := rfl

/-- **C237** the file of a chain has one line for each record, with weight, likelihood and parameters as printed -/
theorem tableOf_rep (rnd : K → K) {s : WS K} {hasL : Bool} {n : Nat} {seg : List (Row K)} (h : Rep s hasL n seg) (hw : Wide n seg) :
    ∃ t, tableOf rnd s = .ok t ∧ Holds t n (seg.map (outRow rnd hasL)) := by
  have hl : s.loglikes.getD (List.replicate s.numrows 0) = seg.map (fun r => if hasL then r.loglike else 0) := by
    rw [h.loglikes, h.hrows]
    cases hasL
    · simp
    · rfl
  have hz : ∀ (seg : List (Row K)), ((seg.map (·.weight)).zip ((seg.map (fun r => if hasL then r.loglike else 0)).zip (seg.map (·.sample)))).map
      (fun t => line rnd t.1 t.2.1 t.2.2) = seg.map (fun r => line rnd r.weight (if hasL then r.loglike else 0) r.sample) := by
    intro seg
    induction seg with
    | nil => rfl
    | cons r seg ih =>
      simp only [List.map_cons, List.zip_cons_cons]
      rw [ih]
  unfold tableOf
  rw [h.weights, h.samples]
  simp only [hl, List.length_map, and_self, if_true]
  refine ⟨_, rfl, ⟨rfl, ?_⟩, ?_⟩
  · intro r hr
    dsimp only at hr
    rw [hz] at hr
    obtain ⟨x, hx, rfl⟩ := List.mem_map.1 hr
    simp only [line, List.length_cons, List.length_map, hw x hx]
  · dsimp only
    rw [hz, List.map_map]
    rfl

/-! ## The directory -/

theorem chainName_inj {base : Str} {i j : Nat} (h : chainName base i = chainName base j) : i = j := by
  have := saveName_injective h
  simpa using this

/-- **C237** after saving, chain `k` is in the file with number `k + 1`, and every other file is as before -/
theorem saveLoop_spec (rnd : K → K) (base : Str) {hasL : Bool} {n : Nat} : ∀ {cs : List (WS K)} {segs : List (List (Row K))} (i : Nat) (d : Dir K),
    List.Forall₂ (fun s seg => Rep s hasL n seg) cs segs → (∀ seg ∈ segs, Wide n seg) → d.WF →
    ∃ d', saveLoop rnd base i cs d = (d', none) ∧ d'.WF ∧
      (∀ (k : Nat) (seg : List (Row K)), segs[k]? = some seg → ∃ t, d'.get? (chainName base (i + k)) = some t ∧ Holds t n (seg.map (outRow rnd hasL))) ∧
      (∀ f, (∀ k, k < segs.length → f ≠ chainName base (i + k)) → d'.get? f = d.get? f)
  | [], [], _, d, _, _, hd => ⟨d, rfl, hd, by intro k seg h; simp at h, fun f _ => rfl⟩
  | [], _ :: _, _, _, h, _, _ => by cases h
  | _ :: _, [], _, _, h, _, _ => by cases h
  | s :: cs, seg :: segs, i, d, h, hw, hd => by
    cases h with
    | cons hs h =>
      obtain ⟨t, ht, hh⟩ := tableOf_rep rnd hs (hw seg List.mem_cons_self)
      obtain ⟨d', h1, h2, h3, h4⟩ := saveLoop_spec rnd base (i + 1) (d.set (chainName base i) t) h (fun x hx => hw x (List.mem_cons_of_mem _ hx)) (Dict.WF_set _ _ hd)
      refine ⟨d', ?_, h2, ?_, ?_⟩
      · unfold saveLoop
        rw [ht]
        exact h1
      · intro k sg hk
        cases k with
        | zero =>
          simp only [List.getElem?_cons_zero, Option.some.injEq] at hk
          subst hk
          refine ⟨t, ?_, hh⟩
          rw [Nat.add_zero, h4 _ ?_, Dict.get?_set, if_pos rfl]
          intro k _ he
          have := chainName_inj he
          omega
        | succ k =>
          rw [List.getElem?_cons_succ] at hk
          have := h3 k sg hk
          rw [show i + 1 + k = i + (k + 1) by omega] at this
          exact this
      · intro f hf
        rw [h4 f ?_, Dict.get?_set, if_neg ?_]
        · have := hf 0 (by simp)
          rw [Nat.add_zero] at this
          exact this
        · intro k hk
          rw [show i + 1 + k = i + (k + 1) by omega]
          exact hf (k + 1) (by simpa using hk)

theorem accepts_chainName {dir base : Str} (hb : '/' ∉ base) (hne : base ≠ []) (ht : endsWith c!".txt" base = false) (i : Nat) :
    accepts (dir ++ '/' :: base) {} (chainName base i) = true := by
  have hE : endsWith ['/'] (dir ++ '/' :: base) = false := by
    rw [Bool.eq_false_iff]
    intro h
    unfold endsWith at h
    rw [List.isSuffixOf_iff_suffix] at h
    obtain ⟨a, ha⟩ := h
    rcases List.eq_nil_or_concat base with rfl | ⟨b', c, rfl⟩
    · exact hne rfl
    · have := congrArg List.getLast? ha
      rw [List.concat_eq_append, ← List.cons_append, ← List.append_assoc] at this
      simp only [List.getLast?_append, List.getLast?_singleton, Option.some_or, Option.some.injEq] at this
      simp [← this] at hb
  have hroot : rootBase (dir ++ '/' :: base) = base := by
    unfold rootBase; rw [if_neg (by simp [hE]), basename_join hb]
  have hsep : rootSep (dir ++ '/' :: base) {} = c!"_" := by
    unfold rootSep; rw [if_neg (by simp [hE])]
  have hAll : ∀ n, Allowed {} n := fun n => ⟨by simp, by simp, by simp, by simp⟩
  rw [accepts_iff, hroot, hsep]
  refine ⟨_, ?_, hAll (value (strNat (i + 1)))⟩
  have := IsChain.numbered (base := base) (sep := c!"_") (ext := c!".txt") _ (digit_strNat (i + 1))
  have e : chainName base i = base ++ c!"_" ++ strNat (i + 1) ++ c!".txt" := by
    unfold chainName saveName
    rw [if_neg (by rw [ht]; decide)]
    simp
  rw [e]
  exact this

/-- the numbers of the chains that were saved -/
def names (base : Str) (m : Nat) : List Str := (List.range m).map (chainName base)

theorem names_nodup (base : Str) (m : Nat) : (names base m).Nodup :=
  List.Nodup.map (fun _ _ h => chainName_inj h) List.nodup_range

/-- no other chain file of this root is in the directory, except such as will be replaced -/
def Clean (root base : Str) (m : Nat) (d : Dir K) : Prop := ∀ f, d.get? f ≠ none → accepts root {} f = true → f ∈ names base m

/-- the listing of the directory has all files, each once, in any order -/
def Lists (listing : List Str) (d : Dir K) : Prop := listing.Nodup ∧ ∀ f, d.get? f ≠ none → f ∈ listing

theorem filterMap_filter_some {α β : Type} (g : α → Option β) (l : List α) : l.filterMap g = (l.filter (fun a => (g a).isSome)).filterMap g := by
  induction l with
  | nil => rfl
  | cons a l ih =>
    cases h : g a with
    | none => rw [List.filterMap_cons_none h, List.filter_cons_of_neg (by simp [h]), ih]
    | some b => rw [List.filterMap_cons_some h, List.filter_cons_of_pos (by simp [h]), List.filterMap_cons_some h, ih]

theorem readDir_perm {root base : Str} {m : Nat} {listing : List Str} {d : Dir K} (hl : Lists listing d)
    (hin : ∀ f ∈ names base m, d.get? f ≠ none ∧ accepts root {} f = true) (hout : ∀ f, d.get? f ≠ none → accepts root {} f = true → f ∈ names base m) :
    (readDir root listing d).Perm ((names base m).filterMap d.get?) := by
  unfold readDir
  rw [filterMap_filter_some]
  apply List.Perm.filterMap
  rw [List.perm_ext_iff_of_nodup ((hl.1.filter _).filter _) (names_nodup base m)]
  intro f
  rw [List.mem_filter, List.mem_filter, Option.isSome_iff_ne_none]
  constructor
  · rintro ⟨⟨_, h1⟩, h2⟩
    exact hout f h2 h1
  · intro h
    obtain ⟨h1, h2⟩ := hin f h
    exact ⟨⟨hl.2 f h1, h2⟩, h1⟩

theorem tables_of_names {d : Dir K} {base : Str} {n : Nat} {segs : List (List (Row K))}
    (h : ∀ (k : Nat) (seg : List (Row K)), segs[k]? = some seg → ∃ t, d.get? (chainName base k) = some t ∧ Holds t n seg) :
    ∃ ts, (names base segs.length).filterMap d.get? = ts ∧ List.Forall₂ (fun t seg => Holds t n seg) ts segs := by
  have key : ∀ (l : List (List (Row K))) (p : Nat), (∀ (k : Nat) (seg : List (Row K)), l[k]? = some seg → ∃ t, d.get? (chainName base (p + k)) = some t ∧ Holds t n seg) →
      List.Forall₂ (fun t seg => Holds t n seg) (((List.range' p l.length).map (chainName base)).filterMap d.get?) l := by
    intro l
    induction l with
    | nil => intro p _; exact .nil
    | cons seg l ih =>
      intro p hp
      obtain ⟨t, h1, h2⟩ := hp 0 seg rfl
      rw [Nat.add_zero] at h1
      rw [List.length_cons, List.range'_succ, List.map_cons, List.filterMap_cons_some h1]
      refine .cons h2 (ih (p + 1) ?_)
      intro k sg hk
      have := hp (k + 1) sg (by rw [List.getElem?_cons_succ]; exact hk)
      rw [show p + (k + 1) = p + 1 + k by omega] at this
      exact this
  refine ⟨_, rfl, ?_⟩
  unfold names
  rw [List.range_eq_range']
  exact key segs 0 (by simpa using h)

theorem holds_map {n : Nat} {ts : List (Arr2 K)} {segs : List (List (Row K))} (h : List.Forall₂ (fun t seg => Holds t n seg) ts segs) :
    ts.map (fun t => t.rows.map lineRow) = segs ∧ ∀ t ∈ ts, Table t n := by
  induction h with
  | nil => exact ⟨rfl, by simp⟩
  | cons h _ ih =>
    refine ⟨?_, ?_⟩
    · rw [List.map_cons, h.2, ih.1]
    · intro t ht
      rcases List.mem_cons.1 ht with rfl | ht
      · exact h.1
      · exact ih.2 t ht

/-- reading files that all have lines and no small weights, without burn-in -/
theorem readBurn_all [IsStrictOrderedRing K] {c0 : CH K} (h0 : c0.ws.minWeightRatio = defaultRatio) {n : Nat} {files : List (Arr2 K)} (ht : ∀ a ∈ files, Table a n)
    (hne : files ≠ []) (hw : ∀ a ∈ files, NoCut (a.rows.map lineRow)) {b : Burn K} (hb : b.lines = 0 ∧ b.frac = 0) (noBurn : Bool) :
    ∃ c', readBurn c0 b noBurn files = .ok c' ∧ Separate c' defaultRatio true n (files.map (fun a => a.rows.map lineRow)) := by
  have hu : usable 0 files = files.map (fun a => a.rows.map lineRow) := by
    unfold usable
    simp only [List.drop_zero]
    rw [List.filter_eq_self.2]
    intro a ha
    have := (hw a ha).1
    cases hr : a.rows with
    | nil => rw [hr] at this; exact absurd rfl this
    | cons _ _ => rfl
  have hm : (usable 0 files).mapM (autoCut c0.ws.minWeightRatio) = .ok (files.map (fun a => a.rows.map lineRow)) := by
    rw [hu, h0]
    have := mapM_ok (f := autoCut (defaultRatio : Option K)) (g := fun seg => seg) (l := files.map (fun a => a.rows.map lineRow))
      (fun seg hs => by
        obtain ⟨a, ha, rfl⟩ := List.mem_map.1 hs
        exact autoCut_noCut (hw a ha))
    rw [List.map_id'] at this
    exact this
  obtain ⟨c', h1, h2, _⟩ := loadFiles_separate 0 ht hm (by simpa using hne)
  refine ⟨c', ?_, ?_⟩
  · unfold readBurn
    rw [hb.1, h1]
    simp only [bind, Except.bind, hb.2]
    rw [if_neg (by simp)]
    rfl
  · rw [← h0]; exact h2

/-- **C237** chains saved under a root and read back from a directory without other chain files of this root: the same chains, up to their order, with weights,
likelihoods and parameters as printed; nothing is removed as burn-in if the properties say so -/
theorem round_trip [IsStrictOrderedRing K] (rnd : K → K) {dir base : Str} (hb : '/' ∉ base) (hne : base ≠ []) (ht : endsWith c!".txt" base = false)
    {c c0 : CH K} {cs : List (WS K)} {hasL : Bool} {n : Nat} {segs : List (List (Row K))} (hc : getSeparateChains c = .ok cs)
    (hold : List.Forall₂ (fun s seg => Rep s hasL n seg) cs segs) (hs : segs ≠ []) (hw : ∀ seg ∈ segs, Wide n seg)
    (hcut : ∀ seg ∈ segs, NoCut (seg.map (outRow rnd hasL))) {d : Dir K} (hd : d.WF) (hclean : Clean (dir ++ '/' :: base) base segs.length d)
    (h0 : c0.ws.minWeightRatio = defaultRatio) (ini : K) (r : Option K) (noBurn : Bool) :
    ∃ d', saveChains rnd base c d = (d', none) ∧ ∀ listing, Lists listing d' →
      ∃ c' segs', readBurn c0 (burnOptions ini (some (r, true))) noBurn (readDir (dir ++ '/' :: base) listing d') = .ok c' ∧
        Separate c' defaultRatio true n segs' ∧ segs'.Perm (segs.map (fun seg => seg.map (outRow rnd hasL))) := by
  obtain ⟨d', h1, h2, h3, h4⟩ := saveLoop_spec rnd base 0 d hold hw hd
  refine ⟨d', ?_, ?_⟩
  · unfold saveChains
    rw [hc]
    exact h1
  · intro listing hl
    simp only [Nat.zero_add] at h3 h4
    have hlen : (segs.map (fun seg => seg.map (outRow rnd hasL))).length = segs.length := by simp
    obtain ⟨ts, hts, hF⟩ := tables_of_names (d := d') (base := base) (n := n) (segs := segs.map (fun seg => seg.map (outRow rnd hasL))) (by
      intro k seg hk
      rw [List.getElem?_map] at hk
      cases hseg : segs[k]? with
      | none => rw [hseg] at hk; cases hk
      | some sg =>
        rw [hseg] at hk
        cases hk
        exact h3 k sg hseg)
    rw [hlen] at hts
    have hP : (readDir (dir ++ '/' :: base) listing d').Perm ts := by
      rw [← hts]
      refine readDir_perm hl ?_ ?_
      · intro f hf
        obtain ⟨k, hk, rfl⟩ := List.mem_map.1 hf
        rw [List.mem_range] at hk
        obtain ⟨t, h5, _⟩ := h3 k _ (List.getElem?_eq_getElem hk)
        exact ⟨by rw [h5]; exact Option.some_ne_none t, accepts_chainName hb hne ht k⟩
      · intro f hf ha
        by_cases hm : f ∈ names base segs.length
        · exact hm
        · rw [h4 f ?_] at hf
          · exact hclean f hf ha
          · rintro k hk rfl
            exact hm (List.mem_map.2 ⟨k, List.mem_range.2 hk, rfl⟩)
    obtain ⟨hmap, htab⟩ := holds_map hF
    have hTne : readDir (dir ++ '/' :: base) listing d' ≠ [] := by
      intro he
      rw [he] at hP
      have := hP.symm.eq_nil
      rw [this] at hmap
      exact hs (List.map_eq_nil_iff.1 hmap.symm)
    obtain ⟨c', h5, h6⟩ := readBurn_all (c0 := c0) h0 (n := n) (fun a ha => htab a (hP.mem_iff.1 ha)) hTne (by
      intro a ha
      have : a.rows.map lineRow ∈ segs.map (fun seg => seg.map (outRow rnd hasL)) := by
        rw [← hmap]
        exact List.mem_map.2 ⟨a, hP.mem_iff.1 ha, rfl⟩
      obtain ⟨seg, h7, h8⟩ := List.mem_map.1 this
      rw [← h8]
      exact hcut seg h7) (burnRemoved_none ini r) noBurn
    refine ⟨c', _, h5, h6, ?_⟩
    have := hP.map (fun t => t.rows.map lineRow)
    rw [hmap] at this
    exact this

/-- **C237** saving what was read changes nothing further -/
theorem save_twice (rnd : K → K) (h : ∀ x, rnd (rnd x) = rnd x) (hasL : Bool) (r : Row K) : outRow rnd true (outRow rnd hasL r) = outRow rnd hasL r := by
  unfold outRow
  simp only [if_true, h, List.map_map]
  congr 1
  apply List.map_congr_left
  intro x _
  exact h x

/-! ## Filtering -/

/-- **C237** the importance filter: the files saved have exactly the records of each chain with a value of the parameter from the limit on, in order -/
theorem filterRun_spec [IsStrictOrderedRing K] (rnd : K → K) (base : Str) {c : CH K} {n i : Nat} {t : K} {segs : List (List (Row K))} (h : Combined c true n segs)
    (hw : ∀ seg ∈ segs, Wide n seg) (hcut : ∀ seg ∈ segs, NoCut (seg.filter (fun r => decide (t ≤ r.sample.getD i 0)))) {d : Dir K} (hd : d.WF) :
    ∃ d', filterRun rnd base i t c d = (d', none) ∧
      (∀ (k : Nat) (seg : List (Row K)), segs[k]? = some seg → ∃ tab, d'.get? (chainName base k) = some tab ∧
        Holds tab n ((seg.filter (fun r => decide (t ≤ r.sample.getD i 0))).map (outRow rnd true))) ∧
      (∀ f, f ∉ names base segs.length → d'.get? f = d.get? f) := by
  have hm : (Arr2.col ⟨n, segs.flatten.map (·.sample)⟩ i).map (fun x => decide (t ≤ x)) = segs.flatten.map (fun r : Row K => decide (t ≤ r.sample.getD i 0)) := by
    unfold Arr2.col
    rw [List.map_map, List.map_map]
    rfl
  have hf := filter_mask h (segs.flatten.map (fun r => decide (t ≤ r.sample.getD i 0)))
  rw [if_pos (List.length_map _).symm, maskSegs_filter] at hf
  obtain ⟨c', h1, h2, _⟩ := hf
  have h3 := getSeparate_agrees h2
  have hok : (segs.map (List.filter (fun r : Row K => decide (t ≤ r.sample.getD i 0)))).mapM (autoCut (defaultRatio : Option K)) =
      .ok (segs.map (List.filter (fun r : Row K => decide (t ≤ r.sample.getD i 0)))) := by
    have := mapM_ok (f := autoCut (defaultRatio : Option K)) (g := fun seg => seg) (l := segs.map (List.filter (fun r : Row K => decide (t ≤ r.sample.getD i 0))))
      (fun seg hs => by
        obtain ⟨a, ha, rfl⟩ := List.mem_map.1 hs
        exact autoCut_noCut (hcut a ha))
    rw [List.map_id'] at this
    exact this
  rw [hok] at h3
  obtain ⟨cs, h4, h5⟩ := h3
  have h5' : List.Forall₂ (fun s seg => Rep s true n seg) cs (segs.map (List.filter (fun r : Row K => decide (t ≤ r.sample.getD i 0)))) := h5.imp (fun _ _ h => h.1)
  obtain ⟨d', h6, _, h7, h8⟩ := saveLoop_spec rnd base 0 d h5' (by
    intro seg hs
    obtain ⟨a, ha, rfl⟩ := List.mem_map.1 hs
    intro r hr
    exact hw a ha r (List.mem_filter.1 hr).1) hd
  simp only [Nat.zero_add] at h7 h8
  refine ⟨d', ?_, ?_, ?_⟩
  · unfold filterRun filterFrom
    rw [h.ws.samples]
    dsimp only
    rw [hm, h1]
    dsimp only
    unfold saveChains
    rw [h4]
    exact h6
  · intro k seg hk
    exact h7 k _ (by rw [List.getElem?_map, hk]; rfl)
  · intro f hf
    apply h8
    rintro k hk rfl
    rw [List.length_map] at hk
    exact hf (List.mem_map.2 ⟨k, List.mem_range.2 hk, rfl⟩)

/-! ## Examples -/

/-- two combined chains of one parameter -/
def ex : CH ℚ :=
  { ws := { weights := some [1, 2, 1], loglikes := some [3, 4, 5], samples := some ⟨1, [[6], [7], [8]]⟩, n := 1, numrows := 3 }, offsets := some [0, 2, 3] }

example : saveChains id c!"run" ex [] =
    ([(c!"run_1.txt", ⟨3, [[1, 3, 6], [2, 4, 7]]⟩), (c!"run_2.txt", ⟨3, [[1, 5, 8]]⟩)], none) := by decide +kernel

example : filterRun id c!"run" 0 (13 / 2) ex [] =
    ([(c!"run_1.txt", ⟨3, [[2, 4, 7]]⟩), (c!"run_2.txt", ⟨3, [[1, 5, 8]]⟩)], none) := by decide +kernel

example : readDir c!"dir/run" [c!"run_2.txt", c!"run.paramnames", c!"run_1.txt", c!"run_b.txt"]
    ([(c!"run_1.txt", ⟨3, [[1, 3, 6], [2, 4, 7]]⟩), (c!"run_2.txt", ⟨3, [[1, 5, 8]]⟩), (c!"run_b.txt", ⟨3, [[1, 1, 1]]⟩)] : Dir ℚ) =
    [⟨3, [[1, 5, 8]]⟩, ⟨3, [[1, 3, 6], [2, 4, 7]]⟩] := by decide +kernel

/-- **C238** in any directory, every chain saved is among the chains read (others may be there too) -/
theorem saved_found_partial (rnd : K → K) {dir base : Str} (hb : '/' ∉ base) (hne : base ≠ []) (ht : endsWith c!".txt" base = false)
    {c : CH K} {cs : List (WS K)} {hasL : Bool} {n : Nat} {segs : List (List (Row K))} (hc : getSeparateChains c = .ok cs)
    (hold : List.Forall₂ (fun s seg => Rep s hasL n seg) cs segs) (hw : ∀ seg ∈ segs, Wide n seg) {d : Dir K} (hd : d.WF) :
    ∃ d', saveChains rnd base c d = (d', none) ∧ ∀ listing, Lists listing d' → ∀ seg ∈ segs,
      ∃ t ∈ readDir (dir ++ '/' :: base) listing d', Holds t n (seg.map (outRow rnd hasL)) := by
  obtain ⟨d', h1, h2, h3, h4⟩ := saveLoop_spec rnd base 0 d hold hw hd
  refine ⟨d', ?_, ?_⟩
  · unfold saveChains
    rw [hc]
    exact h1
  · intro listing hl seg hs
    obtain ⟨k, hk, rfl⟩ := List.getElem_of_mem hs
    obtain ⟨t, h5, h6⟩ := h3 k _ (List.getElem?_eq_getElem hk)
    rw [Nat.zero_add] at h5
    refine ⟨t, ?_, h6⟩
    unfold readDir
    rw [List.mem_filterMap]
    exact ⟨_, List.mem_filter.2 ⟨hl.2 _ (by rw [h5]; exact Option.some_ne_none t), accepts_chainName hb hne ht k⟩, h5⟩

/-! ## What fails -/

/-- what is read after saving is what was saved, whatever was in the directory before -/
def ReadWhatWasSaved : Prop := ∀ (c : CH ℚ) (d d' : Dir ℚ), d.WF → saveChains id c!"run" c d = (d', none) → ∀ cs, getSeparateChains c = .ok cs →
  (readDir c!"dir/run" d'.keys d').length = cs.length

/-- **C238 fails**: chain files of an earlier save with more chains stay in the directory and are read as further chains of the new save (mcsamples.py:2429-2430 only writes
the files of its own chains; chains.py:99-109 lists all files of the root) -/
theorem stale_files_fails : ¬ ReadWhatWasSaved := by
  intro h
  have := h ex [(c!"run_3.txt", ⟨3, [[1, 0, 0]]⟩)]
    [(c!"run_3.txt", ⟨3, [[1, 0, 0]]⟩), (c!"run_1.txt", ⟨3, [[1, 3, 6], [2, 4, 7]]⟩), (c!"run_2.txt", ⟨3, [[1, 5, 8]]⟩)]
    (by unfold Dict.WF; decide +kernel) (by decide +kernel)
  revert this
  cases hg : getSeparateChains ex with
  | error e =>
    have h3 : (match getSeparateChains ex with | .ok _ => true | .error _ => false) = true := by decide +kernel
    rw [hg] at h3
    cases h3
  | ok cs =>
    intro this
    have h2 := this cs rfl
    have h3 : (match getSeparateChains ex with | .ok cs => cs.length | .error _ => 0) = 2 := by decide +kernel
    rw [hg] at h3
    dsimp only at h3
    rw [h3] at h2
    revert h2
    decide +kernel

/-- chain number `k` read is chain number `k` saved -/
def KeepsOrder : Prop := ∀ (d : Dir ℚ) (listing : List Str), Lists listing d → ∀ t1 t2, d = [(c!"run_1.txt", t1), (c!"run_2.txt", t2)] →
  readDir c!"dir/run" listing d = [t1, t2]

/-- **C238 fails**: the chains are read in the order of `os.listdir`, which is arbitrary, so that chain numbers (and options like a chain to leave out that count the chains
loaded) need not refer to the chains saved under these numbers (chains.py:99-109 does not sort) -/
theorem order_fails : ¬ KeepsOrder := by
  intro h
  have := h [(c!"run_1.txt", ⟨3, [[1, 0, 0]]⟩), (c!"run_2.txt", ⟨3, [[1, 0, 1]]⟩)] [c!"run_2.txt", c!"run_1.txt"] ⟨by decide +kernel, by
    intro f hf
    have := Dict.get?_eq_none (d := ([(c!"run_1.txt", ⟨3, [[1, 0, 0]]⟩), (c!"run_2.txt", ⟨3, [[1, 0, 1]]⟩)] : Dir ℚ)) (k := f)
    by_contra hn
    apply hf
    rw [this]
    intro hk
    apply hn
    have e : (Dict.keys ([(c!"run_1.txt", ⟨3, [[1, 0, 0]]⟩), (c!"run_2.txt", ⟨3, [[1, 0, 1]]⟩)] : Dir ℚ)) = [c!"run_1.txt", c!"run_2.txt"] := rfl
    rw [e] at hk
    rcases List.mem_cons.1 hk with rfl | hk
    · exact List.mem_cons_of_mem _ List.mem_cons_self
    · rcases List.mem_cons.1 hk with rfl | hk
      · exact List.mem_cons_self
      · cases hk⟩ _ _ rfl
  revert this
  decide +kernel

/-- samples can be saved as text -/
def CanSave : Prop := ∀ (c : CH ℚ) (n : Nat) (segs : List (List (Row ℚ))) (hasL : Bool), Combined c hasL n segs → segs.flatten ≠ [] →
  (saveChains id c!"run" c []).2 = none

/-- **C238 fails**: samples without likelihoods cannot be saved as separate chains (chains.py:1471 slices `None`), although `saveAsText` writes zeros for them -/
theorem no_likelihoods_fails : ¬ CanSave := by
  intro h
  have := h { ws := { weights := some [1], samples := some ⟨1, [[6]]⟩, n := 1, numrows := 1 }, offsets := some [0, 1] } 1 [[⟨[6], 1, 0⟩]] false
    ⟨rfl, rfl, ⟨rfl, rfl, rfl, rfl, rfl⟩⟩ (by decide)
  revert this
  decide +kernel

/-- filtered chains can be saved if any sample is left -/
def CanSaveFiltered : Prop := ∀ (c : CH ℚ) (t : ℚ) (n : Nat) (segs : List (List (Row ℚ))), Combined c true n segs →
  (∃ r ∈ segs.flatten, t ≤ r.sample.getD 0 0) → (filterRun id c!"run" 0 t c []).2 = none

/-- **C238 fails**: if one of the chains has no sample above the limit, the filtered chains cannot be saved (chains.py:1470 makes a sample object without rows, of which line
995 takes the largest weight; settings_planck_2018.py:124-126) -/
theorem empty_chain_fails : ¬ CanSaveFiltered := by
  intro h
  have := h ex (15 / 2) 1 [[⟨[6], 1, 3⟩, ⟨[7], 2, 4⟩], [⟨[8], 1, 5⟩]] ⟨rfl, rfl, ⟨rfl, rfl, rfl, rfl, rfl⟩⟩ ⟨⟨[8], 1, 5⟩, by decide, by decide +kernel⟩
  revert this
  decide +kernel

/-- samples that are not made from separate chains can be saved -/
def CanSaveSingle : Prop := ∀ (c : CH ℚ) (n : Nat) (rows : List (Row ℚ)), Rep c.ws true n rows → rows ≠ [] → (saveChains id c!"run" c []).2 = none

/-- **C238 fails**: samples made from one array cannot be saved with `saveChainsAsText` (mcsamples.py:2425-2426 asks for separate chains, chains.py:1466-1467 refuses) -/
theorem single_array_fails : ¬ CanSaveSingle := by
  intro h
  have := h { ws := { weights := some [1], loglikes := some [0], samples := some ⟨1, [[6]]⟩, n := 1, numrows := 1 } } 1 [⟨[6], 1, 0⟩] ⟨rfl, rfl, rfl, rfl, rfl⟩ (by decide)
  revert this
  decide +kernel

/-- every sample is saved -/
def SavesAll : Prop := ∀ (c : CH ℚ) (n : Nat) (segs : List (List (Row ℚ))) (d : Dir ℚ), Combined c true n segs → saveChains id c!"run" c [] = (d, none) →
  (readDir c!"dir/run" d.keys d).map (fun t => t.rows.length) = segs.map List.length

/-- **C238 fails**: samples of weight zero are left out when combined chains are saved (chains.py:1470-1471 uses the default smallest weight ratio 1e-30) -/
theorem zero_weights_fails : ¬ SavesAll := by
  intro h
  have := h { ws := { weights := some [1, 0], loglikes := some [0, 0], samples := some ⟨1, [[6], [7]]⟩, n := 1, numrows := 2 }, offsets := some [0, 2] } 1
    [[⟨[6], 1, 0⟩, ⟨[7], 0, 0⟩]] [(c!"run_1.txt", ⟨3, [[1, 0, 6]]⟩)] ⟨rfl, rfl, ⟨rfl, rfl, rfl, rfl, rfl⟩⟩ (by decide +kernel)
  revert this
  decide +kernel

end Verif.SaveChains
