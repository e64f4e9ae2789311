import Verif.Props.PlikPost

/-!
# New best-fit files, sums of foregrounds, processing of a grid
-/

set_option linter.unusedSectionVars false
set_option linter.unusedSimpArgs false

namespace Verif.PlikPost
open Verif.Py

variable {F : Type}

/-! ### best-fit files -/

theorem renumber_false (cnt : Nat) (ls : List Str) : renumber false cnt ls = ls.map rstrip := by
  induction ls with
  | nil => rfl
  | cons l ls ih => simp [renumber, ih]

/-- From chi squared on, the entries are numbered one after the other; everything after them is kept. -/
theorem renumber_spec (cnt : Nat) (es rest : List Str) (he : ∀ l ∈ es, (search entryPat l).isSome) (hr : ∀ l, rest.head? = some l → search entryPat l = none) :
    renumber true cnt (es ++ rest) = es.mapIdx (fun i l => fmt5 (cnt + i) ++ rstrip (l.drop 5)) ++ rest.map rstrip := by
  induction es generalizing cnt with
  | nil =>
    cases rest with
    | nil => rfl
    | cons l rest =>
      have := hr l rfl
      simp [renumber, this, renumber_false]
  | cons l es ih =>
    rw [List.cons_append, renumber, he l (by simp)]
    simp only [Bool.and_true, if_true]
    rw [ih (cnt + 1) fun x hx => he x (by simp [hx]), List.mapIdx_cons, List.cons_append]
    congr 2
    apply List.ext_getElem
    · simp
    · intro i h1 h2
      simp only [List.getElem_mapIdx]
      congr 2
      omega

theorem fmt5_length (n : Nat) (h : n < 100000) : (fmt5 n).length = 5 := by
  unfold fmt5 rjust
  have : (strNat n).length ≤ 5 := by
    unfold strNat
    exact (Nat.length_toDigits_le_iff (b := 10) (by decide) (by decide)).mpr h
  simp
  omega

/-- An entry written with another number, then read again, has the same name and value. -/
theorem renumbered_entry (fl : Str → Option F) (n m : Nat) (hn : n < 10000) (hm : m < 10000) (gap1 val gap2 name tail : Str) (hg1 : Blank gap1 ∧ gap1 ≠ []) (hv : Token val) (hg2 : Blank gap2 ∧ gap2 ≠ [])
    (hname : Token name) (ht : ∀ c, tail.head? = some c → isWs c = true) (x : F) (hx : fl val = some x) (d : Dict Str F) :
    minLine fl d (fmt5 m ++ rstrip ((fmt5 n ++ (gap1 ++ (val ++ (gap2 ++ (name ++ tail))))).drop 5) ++ ['\n']) = .ok (d.set name x) := by
  have h5 : (fmt5 n ++ (gap1 ++ (val ++ (gap2 ++ (name ++ tail))))).drop 5 = gap1 ++ (val ++ (gap2 ++ (name ++ tail))) := by
    rw [← fmt5_length n (by omega), List.drop_left]
  rw [h5]
  -- the end without blanks
  have hlast : ∀ a : Str, a ≠ [] → (∀ c, a.getLast? = some c → isWs c = false) → ∀ t : Str, rstrip (a ++ t) = a ++ rstrip t := by
    intro a hane ha t
    have key : ∀ b : Str, rstrip (a ++ b.reverse) = a ++ rstrip b.reverse := by
      intro b
      induction b with
      | nil => simpa [rstrip] using rstrip_eq_self ha
      | cons c b ih =>
        rw [List.reverse_cons, ← List.append_assoc]
        cases hc : isWs c with
        | true => rw [rstrip_append_ws _ _ hc, rstrip_append_ws _ _ hc, ih]
        | false =>
          rw [rstrip_eq_self, rstrip_eq_self, List.append_assoc]
          · intro y hy; simp at hy; rw [← hy]; exact hc
          · intro y hy; simp at hy; rw [← hy]; exact hc
    simpa using key t.reverse
  have hassoc : gap1 ++ (val ++ (gap2 ++ (name ++ tail))) = (gap1 ++ (val ++ (gap2 ++ name))) ++ tail := by simp [List.append_assoc]
  have hre : rstrip (gap1 ++ (val ++ (gap2 ++ (name ++ tail)))) = (gap1 ++ (val ++ (gap2 ++ name))) ++ rstrip tail := by
    rw [hassoc]
    apply hlast
    · simp [hname.1]
    · intro c hc
      have : (gap1 ++ (val ++ (gap2 ++ name))).getLast? = name.getLast? := by
        rw [← List.append_assoc, ← List.append_assoc, List.getLast?_append]
        cases hgl : name.getLast? with
        | none => rw [List.getLast?_eq_none_iff] at hgl; exact absurd hgl hname.1
        | some y => rfl
      rw [this] at hc
      exact hname.2 c (List.mem_of_getLast? hc)
  rw [hre]
  -- what follows the name begins with a blank
  obtain ⟨sep, rest, hs, hsep⟩ : ∃ sep rest, rstrip tail ++ ['\n'] = sep :: rest ∧ isWs sep = true := by
    cases hrt : rstrip tail with
    | nil => exact ⟨'\n', [], rfl, by decide⟩
    | cons c r =>
      refine ⟨c, r ++ ['\n'], rfl, ?_⟩
      apply ht
      have hpre : rstrip tail <+: tail := by
        unfold rstrip
        have h1 := List.dropWhile_suffix (l := tail.reverse) isWs
        have h2 := List.reverse_prefix.mpr h1
        simpa using h2
      obtain ⟨u, hu⟩ := hpre
      rw [hrt] at hu
      rw [← hu]
      rfl
  -- the number
  have hlead : Blank (List.replicate (5 - (strNat m).length) ' ') ∧ List.replicate (5 - (strNat m).length) ' ' ≠ [] := by
    refine ⟨blank_replicate _, ?_⟩
    have : (strNat m).length ≤ 4 := by
      unfold strNat
      exact (Nat.length_toDigits_le_iff (b := 10) (by decide) (by decide)).mpr hm
    intro h
    rw [List.replicate_eq_nil_iff] at h
    omega
  let e : Entry F := ⟨List.replicate (5 - (strNat m).length) ' ', strNat m, gap1, val, gap2, name, sep, rest, x⟩
  have hok : e.Ok fl := ⟨hlead, ⟨strNat_ne_nil m, fun c hc => strNat_isDigit hc⟩, hg1, hv, hg2, hname, hsep, hx⟩
  have htext : fmt5 m ++ ((gap1 ++ (val ++ (gap2 ++ name))) ++ rstrip tail) ++ ['\n'] = e.text := by
    unfold Entry.text fmt5 rjust
    simp only [e]
    rw [← hs]
    simp [List.append_assoc]
  rw [htext]
  unfold minLine
  rw [search_entry fl e hok]
  simp only [e, hx]

/-- The new file: the lines before chi squared, the three parameters with the next numbers, then the other entries with numbers three larger. -/
theorem newMinimum_spec (fmtv : Nat → Nat → Str) (a es rest : List Str) (c w : Str) (vl : Nat) (ha : ∀ l ∈ a, search chi2Pat l = none) (hc : (search chi2Pat c).isSome)
    (hw : (splitWs (strip c)).head? = some w) (hvl : intStr w = some vl)
    (he : ∀ l ∈ c :: es, (search entryPat l).isSome) (hr : ∀ l, rest.head? = some l → search entryPat l = none) :
    newMinimum fmtv (a ++ (c :: es ++ rest)) = .ok (a.map rstrip ++ [fmtv vl 0, fmtv (vl + 1) 1, fmtv (vl + 2) 2] ++
      ((c :: es).mapIdx (fun i l => fmt5 (vl + 3 + i) ++ rstrip (l.drop 5)) ++ rest.map rstrip)) := by
  unfold newMinimum
  have h1 : (a ++ (c :: es ++ rest)).findIdx? (fun l => (search chi2Pat l).isSome) = some a.length := by
    rw [List.findIdx?_append]
    have h1 : a.findIdx? (fun l => (search chi2Pat l).isSome) = none := by
      rw [List.findIdx?_eq_none_iff]
      intro l hl
      rw [ha l hl]; rfl
    rw [h1, List.cons_append, List.findIdx?_cons, hc]
    simp
  rw [h1]
  simp only
  have h2 : ((a ++ (c :: es ++ rest))[a.length]?.getD []) = c := by simp
  rw [h2, hw]
  simp only [hvl]
  rw [List.take_left, List.drop_left, renumber_spec _ _ _ he hr]

/-- Example: one entry before chi squared, one after. -/
example : newMinimum (fun n k => fmt5 n ++ c!" v" ++ strNat k) [c!"    1  0.5  a  b\n", c!"    2  7.0  chi2_x  c\n", c!"    3  9.0  d  e\n", c!"\n"] =
    .ok [c!"    1  0.5  a  b", c!"    2 v0", c!"    3 v1", c!"    4 v2", c!"    5  7.0  chi2_x  c", c!"    6  9.0  d  e", []] := by decide +kernel

/-! ### file names -/

theorem splitChar_root (r n : Str) (hn : '_' ∉ n) : ∃ ps, splitChar '_' (r ++ '_' :: n) = ps ++ [n] ∧ join ['_'] ps = r ∧ ps ≠ [] := by
  have base : ∀ s : Str, '_' ∉ s → splitChar '_' s = [s] := by
    intro s hs
    induction s with
    | nil => rfl
    | cons c s ih =>
      have h1 : c ≠ '_' := fun e => hs (by simp [e])
      rw [splitChar, ih fun h => hs (by simp [h])]
      simp [h1]
  induction r with
  | nil =>
    refine ⟨[[]], ?_, rfl, by simp⟩
    rw [List.nil_append, splitChar, base n hn]
    simp
  | cons c r ih =>
    obtain ⟨ps, h1, h2, h3⟩ := ih
    cases ps with
    | nil => exact absurd rfl h3
    | cons q qs =>
      by_cases hc : c = '_'
      · refine ⟨[] :: q :: qs, ?_, ?_, by simp⟩
        · rw [List.cons_append, splitChar, h1]
          simp [hc]
        · rw [join_cons2, h2, hc]
          rfl
      · refine ⟨(c :: q) :: qs, ?_, ?_, by simp⟩
        · rw [List.cons_append, splitChar, h1]
          simp [hc]
        · rw [← h2]
          cases qs with
          | nil => rfl
          | cons q2 qs => rw [join_cons2, join_cons2]; rfl

theorem join_snoc (ps : List Str) (h : ps ≠ []) (x : Str) : join ['_'] (ps ++ [x]) = join ['_'] ps ++ '_' :: x := by
  induction ps with
  | nil => exact absurd rfl h
  | cons q qs ih =>
    cases qs with
    | nil => simp [join]
    | cons q2 qs =>
      have := ih (by simp)
      rw [List.cons_append, List.cons_append, join_cons2, join_cons2]
      rw [List.cons_append] at this
      rw [this]
      simp [List.append_assoc]

/-- With a tag of one word after an underscore, new chains and names have the same new root. -/
theorem newFiles_spec (root n t : Str) (hn : '_' ∉ n) (ht : '_' ∉ t) :
    newNamesFile ('_' :: t) (root ++ c!".paramnames") = (root ++ '_' :: t) ++ c!".paramnames" ∧
    newChainFile ('_' :: t) (root ++ '_' :: n) = (root ++ '_' :: t) ++ '_' :: n := by
  constructor
  · unfold newNamesFile
    have h : (root ++ c!".paramnames").take ((root ++ c!".paramnames").length - (c!".paramnames").length) = root := by
      rw [List.length_append, Nat.add_sub_cancel, List.take_left]
    rw [h]
  · unfold newChainFile
    rw [if_pos (by simp)]
    obtain ⟨ps, h1, h2, h3⟩ := splitChar_root root n hn
    have hrep : replaceChar '_' [] ('_' :: t) = t := by
      unfold replaceChar
      rw [List.flatMap_cons]
      simp only [beq_self_eq_true, if_true, List.nil_append]
      induction t with
      | nil => rfl
      | cons c t ih =>
        have h1 : c ≠ '_' := fun e => ht (by simp [e])
        rw [List.flatMap_cons, ih fun h => ht (by simp [h])]
        simp [h1]
    rw [h1, hrep]
    simp only [List.dropLast_concat, List.getLast?_append, List.getLast?_singleton, Option.some_or, Option.getD_some]
    have h4 : ps ++ [t, n] = (ps ++ [t]) ++ [n] := by simp
    rw [h4, join_snoc _ (by simp), join_snoc _ h3, h2]

/-- Example. -/
example : newChainFile c!"_fg" c!"dir/base_plik_3.txt" = c!"dir/base_plik_fg_3.txt" := by decide +kernel

/-! ### sums of foregrounds -/

section sums
variable [Field F]

/-- an array continued by zeros -/
def pad (p : Arr F) (a b : Nat) : F := if a < p.1 ∧ b < p.1 then p.2 a b else 0

theorem sumArr_fold (ps : List (Arr F)) (res : Arr F) (h : (res :: ps).Pairwise fun p q => p.1 ≤ q.1) :
    ∃ r, sumArr ps res = .ok r ∧ r.1 = (((res :: ps).getLast?).map Prod.fst).getD 0 ∧ ∀ a b, pad r a b = pad res a b + (ps.map fun p => pad p a b).sum := by
  induction ps generalizing res with
  | nil => exact ⟨res, rfl, rfl, fun a b => by simp⟩
  | cons p ps ih =>
    rw [List.pairwise_cons] at h
    have hle := h.1 p (by simp)
    obtain ⟨r1, hr1, hs1, hp1⟩ : ∃ r1, addArr res p = .ok r1 ∧ r1.1 = p.1 ∧ ∀ a b, pad r1 a b = pad res a b + pad p a b := by
      unfold addArr
      by_cases hlt : res.1 < p.1
      · rw [if_pos hlt]
        refine ⟨_, rfl, rfl, ?_⟩
        intro a b
        unfold pad
        simp only
        by_cases h1 : a < res.1 ∧ b < res.1
        · have h2 : a < p.1 ∧ b < p.1 := by omega
          rw [if_pos h1, if_pos h2, if_pos h1, if_pos h2, add_comm]
        · rw [if_neg h1, if_neg h1, zero_add]
      · have heq : res.1 = p.1 := by omega
        rw [if_neg hlt, if_pos heq]
        refine ⟨_, rfl, heq, ?_⟩
        intro a b
        unfold pad
        simp only
        rw [← heq]
        split_ifs
        · rfl
        · rw [add_zero]
    have hpw : (r1 :: ps).Pairwise fun p q => p.1 ≤ q.1 := by
      rw [List.pairwise_cons]
      refine ⟨?_, (List.pairwise_cons.mp h.2).2⟩
      intro q hq
      rw [hs1]
      exact (List.pairwise_cons.mp h.2).1 q hq
    obtain ⟨r, h1, h2, h3⟩ := ih r1 hpw
    refine ⟨r, ?_, ?_, ?_⟩
    · rw [sumArr, hr1]
      exact h1
    · rw [h2]
      cases ps with
      | nil => simp [hs1]
      | cons q qs => simp [List.getLast?_cons_cons]
    · intro a b
      rw [h3, hp1, List.map_cons, List.sum_cons, add_assoc]

/-- Components of three temperature channels before those of six channels: the foreground is the sum of all, those of three channels counting for the first three. -/
theorem fgArr_spec (noT : Bool) (ps : List (Arr F)) (h3 : ∀ p ∈ ps, p.1 = 3 ∨ p.1 = 6) (h : ps.Pairwise fun p q => p.1 ≤ q.1) (h6 : ∃ p ∈ ps, p.1 = 6) :
    ∃ r, fgArr noT ps = .ok r ∧ ∀ a b, a < 6 → b < 6 → r a b = (ps.map fun p => pad p a b).sum := by
  have hpw : (((3, fun _ _ => 0) : Arr F) :: ps).Pairwise fun p q => p.1 ≤ q.1 := by
    rw [List.pairwise_cons]
    refine ⟨?_, h⟩
    intro p hp
    rcases h3 p hp with e | e
    · rw [e]
    · rw [e]
      show 3 ≤ 6
      omega
  obtain ⟨r, h1, h2, hp⟩ := sumArr_fold ps (3, fun _ _ => 0) hpw
  have hr6 : r.1 = 6 := by
    obtain ⟨p, hm, hp6⟩ := h6
    cases hl : ps.getLast? with
    | none => rw [List.getLast?_eq_none_iff] at hl; subst hl; simp at hm
    | some q =>
      have hq : q ∈ ps := List.mem_of_getLast? hl
      have : (((3, fun _ _ => 0) : Arr F) :: ps).getLast? = some q := by
        cases ps with
        | nil => simp at hl
        | cons a ps => rw [List.getLast?_cons_cons, hl]
      rw [this] at h2
      simp only [Option.map_some, Option.getD_some] at h2
      rw [h2]
      obtain ⟨as, has⟩ : ∃ as, ps = as ++ [q] := by
        refine ⟨ps.dropLast, ?_⟩
        rw [List.getLast?_eq_some_iff] at hl
        obtain ⟨ys, rfl⟩ := hl
        simp
      rcases h3 q hq with e | e
      · exfalso
        rw [has] at hm h
        rcases List.mem_append.mp hm with hm | hm
        · have := (List.pairwise_append.mp h).2.2 p hm q (by simp)
          omega
        · simp at hm; subst hm; omega
      · exact e
  refine ⟨place noT r, ?_, ?_⟩
  · unfold fgArr
    rw [h1]
  · intro a b ha hb
    have := hp a b
    unfold place
    rw [if_pos hr6]
    have hz : pad ((3, fun _ _ => 0) : Arr F) a b = 0 := by unfold pad; split_ifs <;> rfl
    rw [hz, zero_add] at this
    rw [← this]
    unfold pad
    rw [if_pos (by omega)]

/-- Components of three channels only: temperature, or polarisation if the data have no temperature; nothing else. -/
theorem fgArr_three (noT : Bool) (ps : List (Arr F)) (h3 : ∀ p ∈ ps, p.1 = 3) :
    ∃ r, fgArr noT ps = .ok r ∧ ∀ a b, a < 3 → b < 3 →
      r (if noT then a + 3 else a) (if noT then b + 3 else b) = (ps.map fun p => p.2 a b).sum ∧ r a (b + 3) = 0 ∧ r (a + 3) b = 0 ∧
      r (if noT then a else a + 3) (if noT then b else b + 3) = 0 := by
  have hpw : (((3, fun _ _ => 0) : Arr F) :: ps).Pairwise fun p q => p.1 ≤ q.1 := by
    have key : ∀ l : List (Arr F), (∀ p ∈ l, p.1 = 3) → l.Pairwise fun p q => p.1 ≤ q.1 := by
      intro l
      induction l with
      | nil => intro _; exact List.Pairwise.nil
      | cons p l ih =>
        intro hl
        rw [List.pairwise_cons]
        exact ⟨fun q hq => by rw [hl p (by simp), hl q (by simp [hq])], ih fun q hq => hl q (by simp [hq])⟩
    apply key
    intro p hp
    rcases List.mem_cons.mp hp with rfl | hp
    · rfl
    · exact h3 p hp
  obtain ⟨r, h1, h2, hp⟩ := sumArr_fold ps (3, fun _ _ => 0) hpw
  have hr3 : r.1 = 3 := by
    rw [h2]
    cases hl : (((3, fun _ _ => 0) : Arr F) :: ps).getLast? with
    | none => rw [List.getLast?_eq_none_iff] at hl; exact absurd hl (by simp)
    | some q =>
      have hq := List.mem_of_getLast? hl
      simp only [Option.map_some, Option.getD_some]
      rcases List.mem_cons.mp hq with rfl | hq
      · rfl
      · exact h3 q hq
  refine ⟨place noT r, by unfold fgArr; rw [h1], ?_⟩
  intro a b ha hb
  have hsum : r.2 a b = (ps.map fun p => p.2 a b).sum := by
    have := hp a b
    have hz : pad ((3, fun _ _ => 0) : Arr F) a b = 0 := by unfold pad; split_ifs <;> rfl
    rw [hz, zero_add] at this
    have e1 : pad r a b = r.2 a b := by unfold pad; rw [if_pos (by omega)]
    rw [e1] at this
    rw [this]
    congr 1
    apply List.map_congr_left
    intro p hpm
    unfold pad
    rw [if_pos (by rw [h3 p hpm]; omega)]
  have h6 : ¬ r.1 = 6 := by omega
  unfold place
  rw [if_neg h6]
  cases noT with
  | true =>
    simp only [if_true]
    refine ⟨?_, ?_, ?_, ?_⟩
    · rw [if_pos (by omega), Nat.add_sub_cancel, Nat.add_sub_cancel, hsum]
    · rw [if_neg (by omega)]
    · rw [if_neg (by omega)]
    · rw [if_neg (by omega)]
  | false =>
    simp only [if_false, Bool.false_eq_true]
    refine ⟨?_, ?_, ?_, ?_⟩
    · rw [if_pos (by omega), hsum]
    · rw [if_neg (by omega)]
    · rw [if_neg (by omega)]
    · rw [if_neg (by omega)]

end sums

/-- place of a channel: its frequency, after those of temperature for polarisation -/
def place1 (kind : Char) (freq : Str) : Option Nat :=
  let k := if kind = 'T' then some 0 else if kind = 'E' then some 3 else none
  let f := if freq = c!"100" then some 0 else if freq = c!"143" then some 1 else if freq = c!"217" then some 2 else none
  k.bind fun k => f.map (k + ·)

/-- the entry a label speaks of: two kinds, a frequency, a cross, a frequency -/
def ofLabel (l : Str) : Option (Nat × Nat) :=
  match l with
  | k1 :: k2 :: r => (place1 k1 (r.take 3)).bind fun a => (place1 k2 (r.drop 4)).map (a, ·)
  | _ => none

/-- Every column of the foreground file is the spectrum of its label (all sixteen). -/
theorem columns_spec : fgLabels.map ofLabel = fgColumns.map some := by decide +kernel

/-! ### processing a grid -/

/-- The temperature data are preferred, then temperature with polarisation, then polarisation alone; temperature foregrounds are added for the first only. -/
theorem chooseData_spec (opt : Str → Str) : (chooseData opt = .error .other ↔ opt c!"clik_data_plik" = [] ∧ opt c!"clik_data_plikTE" = [] ∧ opt c!"clik_data_plikEE" = []) ∧
    ∀ d p t, chooseData opt = .ok (d, p, t) → d ≠ [] ∧ (t = true ↔ opt c!"clik_data_plik" ≠ []) ∧ ∃ s ∈ [c!"plik", c!"plikTE", c!"plikEE"], d = opt (c!"clik_data_" ++ s) ∧ p = opt (c!"clik_params_" ++ s) := by
  unfold chooseData
  constructor
  · split_ifs with h1 h2 h3 <;> simp_all
  · intro d p t h
    split_ifs at h with h1 h2 h3
    · simp only [Except.ok.injEq, Prod.mk.injEq] at h
      obtain ⟨rfl, rfl, rfl⟩ := h
      exact ⟨h1, ⟨fun _ => h1, fun _ => rfl⟩, c!"plik", by simp, rfl, rfl⟩
    · simp only [Except.ok.injEq, Prod.mk.injEq] at h
      obtain ⟨rfl, rfl, rfl⟩ := h
      exact ⟨h2, by simpa using h1, c!"plikTE", by simp, rfl, rfl⟩
    · simp only [Except.ok.injEq, Prod.mk.injEq] at h
      obtain ⟨rfl, rfl, rfl⟩ := h
      exact ⟨h3, by simpa using h1, c!"plikEE", by simp, rfl, rfl⟩

example : (chooseData (fun k => if k = c!"clik_data_plikTE" then c!"te.clik" else if k = c!"clik_params_plikTE" then c!"te.par" else [])).toOption = some (c!"te.clik", c!"te.par", false) := by decide

theorem processChains_all (add : List (List F) → List (List F)) (n : Nat) (cs : List (List (List F))) (h : cs.length ≤ n) : processChains add n cs = cs.map add := by
  induction n generalizing cs with
  | zero => cases cs with
    | nil => rfl
    | cons c cs => simp at h
  | succ n ih => cases cs with
    | nil => rfl
    | cons c cs => rw [processChains, ih cs (by simpa using h)]; rfl

/-- A complete run changes names and all chains once, and further runs change nothing. -/
theorem runJob_twice (add : List Str → List (List F) → List (List F)) (n m : Nat) (s s' : Files F) (hn : s.chains.length ≤ n) (h : runJob add n s = .ok s') :
    runJob add m s' = .ok s' ∧ (s.done = false → newNames s.names = .ok s'.names ∧ s'.chains = s.chains.map (add s.names)) := by
  unfold runJob at h
  by_cases hd : s.done = true
  · rw [if_pos hd] at h
    simp only [Except.ok.injEq] at h
    subst h
    exact ⟨by unfold runJob; rw [if_pos hd], fun h => by rw [h] at hd; exact absurd hd (by decide)⟩
  · rw [if_neg hd] at h
    cases hns : newNames s.names with
    | error e => rw [hns] at h; exact absurd h (by simp)
    | ok ns =>
      rw [hns] at h
      simp only [Except.ok.injEq] at h
      subst h
      refine ⟨?_, fun _ => ⟨rfl, processChains_all _ _ _ hn⟩⟩
      unfold runJob
      rw [if_pos (by simp [hn])]

/-! ### what does not hold -/

/-- The full statement: the parameters of the new file of names are the old ones and the three new ones. -/
def NamesKept : Prop := ∀ ls ns, newNames ls = .ok ns → (paraNames ns).length = (paraNames ls).length + 3

/-- Without a line of chi squared the last parameter is written twice.  (plik_postprocess.py:123-132) -/
theorem noChi2_fails : ¬ NamesKept := by
  intro h
  have := h [c!"H0\n", c!"tau\n"] _ rfl
  exact absurd this (by decide +kernel)

/-- The full statement: every old parameter has its old value under the new names. -/
def ValuesKept : Prop := ∀ (ls ns : List Str) (ib : Nat) (row : List ℚ) (n : Str), newNames ls = .ok ns → insertAt ls = .ok ib → (∃ l ∈ ls, isChi2 l) → row.length = 2 + (paraNames ls).length → n ∉ newPars →
  ((paraNames ns).zip ((newRow ib 1 row fun _ _ => 0).drop 2)).lookup n = ((paraNames ls).zip (row.drop 2)).lookup n

/-- Blank lines in the file of names are counted for the place of the new columns but have no column: the columns are shifted.  (plik_postprocess.py:123-127, 209) -/
theorem blankLine_fails : ¬ ValuesKept := by
  intro h
  have := h [c!"H0\n", c!"\n", c!"chi2_a\n", c!"chi2_b\n"] _ 2 [1, 1, 70, 5, 6] c!"chi2_a" rfl rfl ⟨c!"chi2_a\n", by simp, by decide⟩ (by decide +kernel) (by decide +kernel)
  exact absurd this (by decide +kernel)

/-- The full statement: a chain of any number of rows can be processed. -/
def AnyRows : Prop := ∀ (rows : List (List ℚ)), ∃ out, newChain 0 1 [] [] [] rows = .ok out

/-- A chain of one row is read as a vector.  (plik_postprocess.py:187, 195, 209) -/
theorem oneRow_fails : ¬ AnyRows := by
  intro h
  obtain ⟨out, ho⟩ := h [[1, 2]]
  simp [newChain] at ho

/-- The full statement: a file of ranges with parameters without limits can be read. -/
def NoLimits : Prop := ∀ (fl : Str → Option ℚ) (n : Str), Token n → ∃ d, parseRanges fl [n ++ c!" N N\n"] [] = .ok d

/-- A parameter without limits has two equal words, which are taken for its fixed value.  (plik_postprocess.py:140-141) -/
theorem noLimits_fails : ¬ NoLimits := by
  intro h
  obtain ⟨d, hd⟩ := h (fun s => if s = c!"N" then none else some 1) c!"H0" (by decide)
  have : parseRanges (fun s => if s = c!"N" then none else some (1 : ℚ)) [c!"H0" ++ c!" N N\n"] [] = .error .value := by decide +kernel
  rw [this] at hd
  exact absurd hd (by simp)

/-- The full statement: components can be given in any order. -/
def AnyOrder : Prop := ∀ (ps : List (Arr ℚ)), (∀ p ∈ ps, p.1 = 3 ∨ p.1 = 6) → ∃ r, fgArr false ps = .ok r

/-- A component of three channels after one of six cannot be added.  (plik_postprocess.py:63-67) -/
theorem order_fails : ¬ AnyOrder := by
  intro h
  obtain ⟨r, hr⟩ := h [(6, fun _ _ => 1), (3, fun _ _ => 1)] (by simp)
  simp [fgArr, sumArr, addArr] at hr

/-- The full statement: a run that was interrupted can be completed by another. -/
def Resumed : Prop := ∀ (add : List Str → List (List ℚ) → List (List ℚ)) (k n : Nat) (s s1 s2 s3 : Files ℚ), runJob add k s = .ok s1 → runJob add n s1 = .ok s2 → s.chains.length ≤ n →
  runJob add n s = .ok s3 → s2.names = s3.names ∧ s2.chains = s3.chains

/-- Chains are only marked at the end: after an interruption names and chains get the parameters once more.  (plikParams.py:44-46) -/
theorem interrupted_fails : ¬ Resumed := by
  intro h
  have := h (fun _ r => r) 0 1 ⟨[c!"chi2_x"], [[]], false⟩ _ _ _ rfl rfl (by simp) rfl
  exact absurd this.1 (by decide +kernel)

/-- The full statement: for every tag new chains and names have the same root. -/
def SameRoot : Prop := ∀ root n tag : Str, '_' ∉ n → tag ≠ [] → ∃ r, newNamesFile tag (root ++ c!".paramnames") = r ++ c!".paramnames" ∧ newChainFile tag (root ++ '_' :: n) = r ++ '_' :: n

/-- Underscores are taken out of the tag for the chains only.  (plik_postprocess.py:119, 190) -/
theorem tag_fails : ¬ SameRoot := by
  intro h
  obtain ⟨r, h1, h2⟩ := h c!"a" c!"1.txt" c!"_b_c" (by decide) (by decide)
  have e1 : newNamesFile c!"_b_c" (c!"a" ++ c!".paramnames") = c!"a_b_c" ++ c!".paramnames" := by decide +kernel
  have e2 : newChainFile c!"_b_c" (c!"a" ++ '_' :: c!"1.txt") = c!"a_bc" ++ '_' :: c!"1.txt" := by decide +kernel
  rw [e1] at h1
  rw [e2] at h2
  have h3 := List.append_cancel_right h1
  have h4 := List.append_cancel_right h2
  rw [← h3] at h4
  exact absurd h4 (by decide)

/-- The full statement: the last line of a best-fit file may be without label and end of line. -/
def LastLine : Prop := ∀ (fl : Str → Option ℚ) (val name : Str), Token val → Token name → (fl val).isSome →
  ∃ d, parseMin fl [c!"    1   " ++ val ++ c!"   " ++ name] [] = .ok d ∧ (d.get? name).isSome

/-- The expression then takes a blank for the name, and the parameter is missing.  (plik_postprocess.py:16-21) -/
theorem lastLine_fails : ¬ LastLine := by
  intro h
  obtain ⟨d, hd, hs⟩ := h (fun s => if s = c!"0.5" then some (1 / 2) else none) c!"0.5" c!"tau" (by decide) (by decide) rfl
  have : parseMin (fun s => if s = c!"0.5" then some ((1 : ℚ) / 2) else none) [c!"    1   " ++ c!"0.5" ++ c!"   " ++ c!"tau"] [] = .ok [(c!" ", 1 / 2)] := by decide +kernel
  rw [this] at hd
  simp only [Except.ok.injEq] at hd
  subst hd
  exact absurd hs (by decide +kernel)

end Verif.PlikPost
