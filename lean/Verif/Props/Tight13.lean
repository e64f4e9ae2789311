import Verif.Props.SubmitJob
import Verif.Props.JobStatus
import Verif.Props.NumText
import Verif.Props.Scripts
import Verif.Props.CamSpec
import Verif.Props.Cobaya
import Verif.Props.Convolve
import Verif.Props.CMBlikesChi
import Verif.Props.DensityLevels
import Verif.Model.Smooth
import Verif.Model.Plik
import Verif.Model.DES
import Verif.Props.Samples
import Mathlib.Tactic.Linarith
import Mathlib.Tactic.Ring

/-!
# More on what single definitions do, V

Found by changing definitions: these changes broke only examples before.
-/

namespace Verif.JobQueue
open Verif.Py

/-- **C64**: a line of the queue is shown if it is of the user and in the state asked for: with both states all lines of the user are, with one of them
those that name the state of running jobs or those that do not, with none no line -/
theorem wantLine_states (user txt line : Str) (h : contains (' ' :: user ++ [' ']) line = true) :
    wantLine user txt true true line = true ∧ wantLine user txt true false line = searchNoCase txt line ∧
    wantLine user txt false true line = (!searchNoCase txt line) ∧ wantLine user txt false false line = false := by
  unfold wantLine
  rw [h]
  cases searchNoCase txt line <;> simp

/-- and no line of another user ever is -/
theorem wantLine_user (user txt line : Str) (h : contains (' ' :: user ++ [' ']) line = false) (a b : Bool) : wantLine user txt a b line = false := by
  unfold wantLine
  rw [h]; rfl

example : wantLine c!"me" c!" R " true false c!"12 q job me  R  1:00" = true ∧ wantLine c!"me" c!" R " false true c!"12 q job me  R  1:00" = false ∧
    wantLine c!"me" c!" R " true true c!"12 q job you  R  1:00" = false := by decide +kernel

end Verif.JobQueue

namespace Verif.Batch
open Verif.Py

/-- **C34**: the chains of a job are in a directory of its parameters and its data, and are named after the job -/
theorem chainRoot_place (path : Str) (params : List Str) (d : DS) (base : Str) (hn : '/' ∉ (mkItem path params d base).name)
    (hd : Path.Plain (path ++ (mkItem path params d base).paramtag ++ c!"/" ++ (mkItem path params d base).datatag)) :
    Path.basename (mkItem path params d base).chainRoot = (mkItem path params d base).name ∧
    Path.dirname (mkItem path params d base).chainRoot =
      path ++ (mkItem path params d base).paramtag ++ c!"/" ++ (mkItem path params d base).datatag := by
  have e : (mkItem path params d base).chainRoot =
      (path ++ (mkItem path params d base).paramtag ++ c!"/" ++ (mkItem path params d base).datatag) ++ '/' :: (mkItem path params d base).name := by
    show path ++ _ ++ c!"/" ++ _ ++ c!"/" ++ _ = _
    rw [show (c!"/" : Str) = ['/'] from rfl]
    simp [mkItem]
  rw [e]
  exact ⟨Path.basename_join hn, Path.dirname_join hd hn⟩

/-- **C34**: the chains of an importance run are beside those of its parent, and are named after the run -/
theorem impRoot_place (i : Info) (r : ImpRun) (dir : Str) (hi : i.chainRoot = dir ++ '/' :: i.name) (hd : Path.Plain dir)
    (hn : '/' ∉ (impInfo i r).name) :
    Path.dirname (impInfo i r).chainRoot = dir ∧ Path.basename (impInfo i r).chainRoot = (impInfo i r).name := by
  have e : (impInfo i r).chainRoot = dir ++ '/' :: (impInfo i r).name := by
    show i.chainRoot ++ _ = dir ++ '/' :: (i.name ++ _)
    rw [hi]
    simp
  rw [e]
  exact ⟨Path.dirname_join hd hn, Path.basename_join hn⟩

/-- **C34**: a chain and an importance run of the same name have different ini files -/
theorem iniFile_kinds (i j : Info) (hp : i.batchPath = j.batchPath) (hi : i.isImp = false) (hj : j.isImp = true) (v w : Str) :
    i.iniFile v ≠ j.iniFile w ∧ (∃ t, i.iniFile v = i.batchPath ++ c!"iniFiles/" ++ t) ∧ ∃ t, j.iniFile w = j.batchPath ++ c!"postIniFiles/" ++ t := by
  have ei : i.iniFile v = i.batchPath ++ c!"iniFiles/" ++ (i.name ++ v ++ c!".ini") := by
    unfold Info.iniFile
    rw [hi]
    simp [List.append_assoc]
  have ej : j.iniFile w = j.batchPath ++ c!"postIniFiles/" ++ (j.name ++ w ++ c!".ini") := by
    unfold Info.iniFile
    rw [hj]
    simp [List.append_assoc]
  refine ⟨?_, ⟨_, ei⟩, ⟨_, ej⟩⟩
  rw [ei, ej, hp, List.append_assoc, List.append_assoc j.batchPath c!"postIniFiles/"]
  intro h
  have h2 := List.append_cancel_left h
  have := congrArg List.head? h2
  revert this
  change some 'i' = some 'p' → False
  decide

example : ({ (mkItem c!"g/" [c!"mnu"] { names := [c!"a"], params := [], tag := c!"a" } c!"base") with isImp := true }).iniFile [] = c!"g/postIniFiles/base_mnu_a.ini" := by
  decide +kernel

end Verif.Batch

namespace Verif.Density
open Verif.Py
variable {K : Type} [Field K]

/-- sum of trapezoids of unit width -/
def trapezoid : List K → K
  | a :: b :: l => (a + b) / 2 + trapezoid (b :: l)
  | _ => 0

theorem trapezoid_eq [CharZero K] : ∀ (a : K) (l : List K), trapezoid (a :: l) = (a :: l).sum - (a :: l).getLastD 0 / 2 - a / 2
  | a, [] => by simp [trapezoid]; ring
  | a, b :: l => by
    rw [trapezoid, trapezoid_eq b l]
    simp only [List.sum_cons, List.getLastD_cons]
    ring

/-- **C67**: the norm of the grid is the integral by trapezoids, in units of its spacing -/
theorem mkGrid_norm [CharZero K] (sort : List K → List K) (factor : K) (grid P : List K) (h1 : P.headD 0 = grid.headD 0) (h2 : P.getLastD 0 = grid.getLastD 0) :
    (mkGrid sort factor grid P).norm = trapezoid grid := by
  cases grid with
  | nil =>
    simp only [mkGrid, h1, h2]
    simp [trapezoid]
  | cons a l =>
    simp only [mkGrid, h1, h2, trapezoid_eq]
    rfl

example : (mkGrid id 1 [(1 : ℚ), 4, 2] [1, 2]).norm = 11 / 2 := by decide +kernel

end Verif.Density

namespace Verif.DES
variable {K : Type}

/-- **C159**: bins that count from one in the file count from zero in the likelihood -/
theorem itemOf_zero (i : Nat) (r : Row K) (h1 : 0 < r.bin1) (h2 : 0 < r.bin2) (h3 : 0 < r.tbin) :
    ∃ a b t, itemOf i r = (i, a, b, t) ∧ a + 1 = r.bin1 ∧ b + 1 = r.bin2 ∧ t + 1 = r.tbin :=
  ⟨_, _, _, rfl, by omega, by omega, by omega⟩

example : itemOf 3 (⟨1, 4, 20, (0 : Nat)⟩ : Row Nat) = (3, 0, 3, 19) := rfl

end Verif.DES

namespace Verif.Smooth
variable {F : Type} [Field F]

/-- **C167**: the window at an output reaches exactly the inputs that it covers -/
theorem tap_support (win : Nat → F) (start len n : Nat) :
    (∀ j, j < len → j ≤ n + start → tap win start len n (n + start - j) = win j) ∧
    (∀ k, n + start < k → tap win start len n k = 0) ∧ (∀ k, k + len ≤ n + start → tap win start len n k = 0) := by
  refine ⟨?_, ?_, ?_⟩
  · intro j hj hn
    unfold tap
    rw [if_pos ⟨by omega, by omega⟩]
    congr 1
    omega
  · intro k hk
    unfold tap
    rw [if_neg (by omega)]
  · intro k hk
    unfold tap
    rw [if_neg (by omega)]

example : tap (fun j => (j : ℚ) + 1) 1 3 5 7 = 0 ∧ tap (fun j => (j : ℚ) + 1) 1 3 5 6 = 1 ∧ tap (fun j => (j : ℚ) + 1) 1 3 5 4 = 3 ∧
    tap (fun j => (j : ℚ) + 1) 1 3 5 3 = 0 := by
  simp [tap]; norm_num

end Verif.Smooth

namespace Verif.CMBlikes
variable {K : Type} [Zero K]

/-- **C74**: a spectrum that reaches the largest multipole is taken from the least one on, none missing; one that is not given is zero -/
theorem theoryCl_values (lmin lmax : Nat) (h : lmin ≤ lmax) :
    (∀ l : List K, lmax < l.length → ∃ v, theoryCl lmin lmax (some l) = .ok v ∧ v.length = lmax + 1 - lmin ∧ ∀ i, i < lmax + 1 - lmin → v[i]? = l[lmin + i]?) ∧
    ∃ v, theoryCl (K := K) lmin lmax none = .ok v ∧ v.length = lmax + 1 - lmin ∧ ∀ x ∈ v, x = 0 := by
  constructor
  · intro l hl
    have hlen : ((l.take (lmax + 1)).drop lmin).length = lmax + 1 - lmin := by
      rw [List.length_drop, List.length_take]; omega
    refine ⟨(l.take (lmax + 1)).drop lmin, ?_, hlen, ?_⟩
    · simp only [theoryCl, assignAll, hlen, if_true]
    · intro i hi
      rw [List.getElem?_drop, List.getElem?_take_of_lt (by omega)]
  · refine ⟨_, rfl, by simp, ?_⟩
    intro x hx
    exact (List.mem_replicate.mp hx).2

example : ∃ v, theoryCl 2 4 (some [(9 : ℚ), 8, 7, 6, 5, 4]) = .ok v ∧ v.length = 4 + 1 - 2 ∧ ∀ i, i < 4 + 1 - 2 → v[i]? = [(9 : ℚ), 8, 7, 6, 5, 4][2 + i]? :=
  (theoryCl_values 2 4 (by decide)).1 _ (by decide)

end Verif.CMBlikes

namespace Verif.CamSpec
open Verif.Py
variable {F : Type} [Field F]

/-- **C164**: the calibration of the map enters all six spectra as its square -/
theorem cals_planck (sqrt : F → F) (par : Dict Str F) (c : F) :
    cals sqrt (par.set c!"calPlanck" c) = (cals sqrt (par.set c!"calPlanck" 1)).map (c * c * ·) := by
  have g : ∀ n : Str, n ≠ c!"calPlanck" → ∀ x, (par.set c!"calPlanck" x).get? n = par.get? n := by
    intro n hn x
    rw [Dict.get?_set, if_neg hn]
  have g0 : ∀ x, (par.set c!"calPlanck" x).get? c!"calPlanck" = some x := by
    intro x; rw [Dict.get?_set, if_pos rfl]
  unfold cals
  dsimp only
  rw [g0, g0, g c!"cal0" (by decide), g c!"cal0" (by decide), g c!"cal2" (by decide), g c!"cal2" (by decide), g c!"calTE" (by decide), g c!"calTE" (by decide),
    g c!"calEE" (by decide), g c!"calEE" (by decide)]
  simp only [Option.getD_some, List.map_cons, List.map_nil]
  congr 1
  · ring
  congr 1
  · ring
  congr 1
  · ring
  congr 1
  · ring
  congr 1
  · ring
  congr 1
  ring

/-- **C164**: a text of ranges must not be blank -/
theorem rangeToElls_blank (s : Str) (h : Blank s) : rangeToElls s = .error .value := by
  unfold rangeToElls
  rw [splitWs_blank h, if_pos rfl]

/-- **C164**: a text of ranges gives the multipoles of all of them in order -/
theorem rangeToElls_spec (rs : List (Nat × Nat)) (h : rs ≠ []) (ht : ∀ r ∈ rs, Token (rangeText r.1 r.2)) :
    rangeToElls (join [' '] (rs.map fun r => rangeText r.1 r.2)) = .ok (rs.flatMap fun r => fullElls r.1 r.2) := by
  have e := splitWs_join (l := rs.map fun r => rangeText r.1 r.2) (tail := []) (by
    intro t hm
    obtain ⟨r, hr, rfl⟩ := List.mem_map.mp hm
    exact ht r hr) (by intro c hc; cases hc)
  rw [List.append_nil] at e
  unfold rangeToElls
  rw [e, if_neg (by simpa using h), itemsElls_spec]

example : rangeToElls c!"30-31 7-8" = .ok [30, 31, 7, 8] ∧ rangeToElls c!"  " = .error .value := by decide

end Verif.CamSpec

namespace Verif.NumText
open Verif.Py
section
variable {K : Type} [Field K] [LinearOrder K] [IsStrictOrderedRing K] [FloorRing K]

/-- **C217**: a label is one formula, and what is between the dollars reads as the value to eleven digits -/
theorem label_formula (x : K) : ∃ s, label x = '$' :: (s ++ ['$']) ∧ readLabel s = some (roundSig 10 x) :=
  ⟨sciNotation (fmte 10 x), rfl, readLabel_sci 10 (by decide) x⟩

example : ∃ s, label (1 / 8 : ℚ) = '$' :: (s ++ ['$']) ∧ readLabel s = some (roundSig 10 (1 / 8 : ℚ)) := label_formula _
end
end Verif.NumText

namespace Verif.SubmitJob
open Verif.Py

theorem intStr_token (n : Int) : Token (intStr n) := by
  have ht := JobStatus.strNat_token n.natAbs
  unfold intStr
  split
  · refine ⟨by simp, ?_⟩
    intro c hc
    rcases List.mem_cons.mp hc with h | h
    · rw [h]; decide
    · exact ht.2 c h
  · exact ht

/-- the number of chains as text -/
theorem intStr_nat (n : Nat) : intStr n = strNat n := by
  unfold intStr
  rw [if_neg (by omega)]; rfl

/-- **C212**: a run without a command of its own in the template is started with the number of chains, the program and the ini file, and its output goes to a log
file named after the ini file; it is put in the background unless runs follow each other -/
theorem plainCommand_words (s : Settings) (n : Nat) (seq : Bool) (param : Str) (hp : Token s.program) (hq : Token param) :
    splitWs (plainCommand s n seq param) =
      [c!"time", c!"mpirun", c!"-np", strNat n, s.program, param ++ c!".ini", c!">", c!"./scripts/" ++ Path.basename (param ++ c!".ini") ++ c!".log", c!"2>&1"] ++
        (if seq then [] else [c!"&"]) := by
  have w1 : ∀ c ∈ (c!".ini" : Str), isWs c = false := by decide
  have w2 : ∀ c ∈ (c!"./scripts/" : Str), isWs c = false := by decide
  have w3 : ∀ c ∈ (c!".log" : Str), isWs c = false := by decide
  have hi : Token (param ++ c!".ini") := by
    refine ⟨by simp, ?_⟩
    intro c hc
    rcases List.mem_append.mp hc with h | h
    · exact hq.2 c h
    · exact w1 c h
  have hb : Token (c!"./scripts/" ++ Path.basename (param ++ c!".ini") ++ c!".log") := by
    refine ⟨by simp, ?_⟩
    intro c hc
    rcases List.mem_append.mp hc with h | h
    · rcases List.mem_append.mp h with h | h
      · exact w2 c h
      · have : c ∈ param ++ c!".ini" := by
          unfold Path.basename at h
          exact List.mem_reverse.mp (List.takeWhile_sublist _ |>.subset (List.mem_reverse.mp h))
        exact hi.2 c this
    · exact w3 c h
  have hn := JobStatus.strNat_token n
  have e : plainCommand s n seq param = c!"time mpirun -np " ++ strNat n ++ ' ' :: s.program ++ ' ' :: (param ++ c!".ini") ++ c!" > " ++
      (c!"./scripts/" ++ Path.basename (param ++ c!".ini") ++ c!".log") ++ (c!" 2>&1 " ++ (if seq then [] else ['&'])) := by
    unfold plainCommand
    rw [intStr_nat]
    simp [List.append_assoc]
  rw [e]
  generalize c!"./scripts/" ++ Path.basename (param ++ c!".ini") ++ c!".log" = logf at hb ⊢
  generalize param ++ c!".ini" = inif at hi ⊢
  generalize strNat n = num at hn ⊢
  have t1 : Token c!"time" := by decide
  have t2 : Token c!"mpirun" := by decide
  have t3 : Token c!"-np" := by decide
  have t4 : Token c!">" := by decide
  have t5 : Token c!"2>&1" := by decide
  have t6 : Token c!"&" := by decide
  cases seq with
  | true =>
    have := splitWs_join (l := [c!"time", c!"mpirun", c!"-np", num, s.program, inif, c!">", logf, c!"2>&1"]) (tail := [' ']) (by
      intro t ht
      simp only [List.mem_cons, List.not_mem_nil, or_false] at ht
      rcases ht with h | h | h | h | h | h | h | h | h <;> rw [h] <;> assumption) blank_space
    rw [if_pos rfl, if_pos rfl, List.append_nil]
    refine Eq.trans (congrArg splitWs ?_) this
    simp [join]
  | false =>
    have := splitWs_join (l := [c!"time", c!"mpirun", c!"-np", num, s.program, inif, c!">", logf, c!"2>&1", c!"&"]) (tail := []) (by
      intro t ht
      simp only [List.mem_cons, List.not_mem_nil, or_false] at ht
      rcases ht with h | h | h | h | h | h | h | h | h | h <;> rw [h] <;> assumption) (by intro c hc; cases hc)
    rw [if_neg (by decide), if_neg (by decide)]
    refine Eq.trans (congrArg splitWs ?_) this
    simp [join]

end Verif.SubmitJob

namespace Verif.Scripts
open Verif.Py

/-- **C200**: names in a list of jobs are in a column of 33 characters, none is cut -/
theorem pad33_column (s : Str) : (pad33 s).length = max 33 s.length ∧ ∃ n, pad33 s = s ++ List.replicate n ' ' := by
  refine ⟨?_, ⟨_, rfl⟩⟩
  simp only [pad33, List.length_append, List.length_replicate]
  omega

example : (pad33 c!"base_mnu").length = 33 := rfl

/-- **C200**: a formula is between dollars exactly when formulas are wanted -/
theorem mathText_spec (a : CArgs) (t : Str) : (a.math = true → mathText a t = '$' :: (t ++ ['$'])) ∧ (a.math = false → mathText a t = t) := by
  constructor
  · intro h
    unfold mathText
    rw [h]; rfl
  · intro h
    unfold mathText
    rw [h]; rfl

/-- **C200**: a job of one run is one line; a job of several runs has a line for each after that of the job; each line ends with the name -/
theorem jobLines_count (items : List (Str × Option Str)) (j : QJob) :
    (jobLines items j).length = (if 1 < j.names.length then 1 + j.names.length else 1) ∧
    (∀ n ∈ j.names, 1 < j.names.length → ∃ a, c!"    >>  " ++ a ++ c!" " ++ n ∈ jobLines items j ∧
      (statOf items j.names n = none → a = c!"      ") ∧ ∀ t, statOf items j.names n = some t → a = t) := by
  constructor
  · unfold jobLines
    by_cases h : 1 < j.names.length
    · rw [if_pos h, if_pos h, List.length_cons, List.length_map]; omega
    · rw [if_neg h, if_neg h]; rfl
  · intro n hn h
    refine ⟨(statOf items j.names n).getD c!"      ", ?_, ?_, ?_⟩
    · unfold jobLines
      rw [if_pos h]
      exact List.mem_cons_of_mem _ (List.mem_map.mpr ⟨n, hn, rfl⟩)
    · intro e; rw [e]; rfl
    · intro t e; rw [e]; rfl

/-- **C200**: the state shown is that of the first item of the name; runs that are not of the job have none -/
theorem statOf_spec (items : List (Str × Option Str)) (names : List Str) (name : Str) :
    (name ∉ names → statOf items names name = none) ∧
    (∀ a b t, name ∈ names → items = a ++ (name, t) :: b → (∀ x ∈ a, x.1 ≠ name) → statOf items names name = t) := by
  constructor
  · intro h
    unfold statOf
    rw [if_neg h]
  · intro a b t h e ha
    unfold statOf
    rw [if_pos h, e, List.find?_append]
    have : a.find? (fun i => decide (i.1 = name)) = none := by
      rw [List.find?_eq_none]
      intro x hx
      simpa using ha x hx
    rw [this]
    simp

example : statOf [(c!"a", some c!"0.01"), (c!"b", none)] [c!"a"] c!"a" = some c!"0.01" := by decide

end Verif.Scripts

namespace Verif.Convolve
variable {K : Type} [Field K] [LinearOrder K] [FloorRing K]

/-- **C41**: the kernel reaches as far as the range says, in units of the width, rounded down to whole steps -/
theorem fillOf_range (range sigma : K) (h : 0 ≤ range * sigma) : (fillOf range sigma : K) ≤ range * sigma ∧ range * sigma < fillOf range sigma + 1 := by
  have h0 : 0 ≤ ⌊range * sigma⌋ := Int.floor_nonneg.mpr h
  have e : ((fillOf range sigma : Nat) : K) = ((⌊range * sigma⌋ : Int) : K) := by
    unfold fillOf
    have : ((⌊range * sigma⌋.toNat : Int)) = ⌊range * sigma⌋ := Int.toNat_of_nonneg h0
    exact_mod_cast congrArg (Int.cast (R := K)) this
  rw [e]
  exact ⟨Int.floor_le _, Int.lt_floor_add_one _⟩

example : (fillOf (4 : ℚ) (3 / 2) : ℚ) ≤ 4 * (3 / 2) ∧ (4 : ℚ) * (3 / 2) < fillOf (4 : ℚ) (3 / 2) + 1 := fillOf_range _ _ (by norm_num)

end Verif.Convolve

namespace Verif.Samples
open Verif.Py

/-- **C22**: what is left after columns are deleted are the others, in order -/
theorem deleteIdx_rest {α : Type} (l : List α) (ix : List Nat) :
    deleteIdx l ix = ((List.range l.length).filter (fun i => decide (i ∉ ix))).filterMap (fun i => l[i]?) := by
  have h : ∀ (l : List α) (k : Nat), (((l.zipIdx k).filter (fun p => !ix.contains p.2)).map (·.1)) =
      ((List.range' k l.length).filter (fun i => decide (i ∉ ix))).filterMap (fun i => l[i - k]?) := by
    intro l
    induction l with
    | nil => intro k; simp
    | cons a l ih =>
      intro k
      rw [List.zipIdx_cons, List.length_cons, List.range'_succ]
      have e : ((List.range' (k + 1) l.length).filter (fun i => decide (i ∉ ix))).filterMap (fun i => (a :: l)[i - k]?) =
          ((List.range' (k + 1) l.length).filter (fun i => decide (i ∉ ix))).filterMap (fun i => l[i - (k + 1)]?) := by
        apply List.filterMap_congr
        intro i hi
        have hm := (List.mem_filter.mp hi).1
        rw [List.mem_range'_1] at hm
        obtain ⟨m, rfl⟩ : ∃ m, i = k + 1 + m := ⟨i - (k + 1), by omega⟩
        rw [show k + 1 + m - k = m + 1 by omega, show k + 1 + m - (k + 1) = m by omega]
        rfl
      by_cases hk : k ∈ ix
      · rw [List.filter_cons_of_neg (by simpa using hk), List.filter_cons_of_neg (by simpa using hk), ih, e]
      · rw [List.filter_cons_of_pos (by simpa using hk), List.filter_cons_of_pos (by simpa using hk), List.map_cons, ih, List.filterMap_cons, e]
        simp
  have := h l 0
  unfold deleteIdx
  rw [this, List.range_eq_range']
  rfl

example : deleteIdx [c!"a", c!"b", c!"c", c!"d"] [1, 2] = [c!"a", c!"d"] := by decide

variable {K : Type} [Field K] [LinearOrder K] [IsStrictOrderedRing K] [FloorRing K]

/-- **C21**: from one on the burn in is a number of rows, below it is a fraction of all rows, to the nearest row -/
theorem burnRows_meaning (n : Nat) (r : K) :
    (∀ m : Nat, 1 ≤ m → r = m → burnRows n r = m) ∧ (r < 1 → |(burnRows n r : K) - n * r| ≤ 1 / 2) := by
  constructor
  · intro m hm e
    have h1 : (1 : K) ≤ r := by rw [e]; exact_mod_cast hm
    have h0 : (0 : K) ≤ r := le_trans zero_le_one h1
    unfold burnRows
    rw [if_pos h1]
    unfold Thin.trunc
    rw [if_pos h0, e]
    exact Int.floor_natCast m
  · intro h
    unfold burnRows
    rw [if_neg (not_le.mpr h)]
    have f1 := Int.floor_le ((n : K) * r)
    have f2 := Int.lt_floor_add_one ((n : K) * r)
    unfold roundHalfEven
    dsimp only
    split
    · rw [abs_le]; constructor <;> linarith
    · split
      · push_cast
        rw [abs_le]; constructor <;> linarith
      · split
        · rw [abs_le]; constructor <;> linarith
        · push_cast
          rw [abs_le]; constructor <;> linarith

example : burnRows 10 (3 / 10 : ℚ) = 3 ∧ burnRows 10 (2 : ℚ) = 2 := by decide +kernel

end Verif.Samples

namespace Verif.Cobaya
open Verif.Py
variable {K : Type}

/-- **C148**: a parameter of the input becomes one of the same name, with its label (the name if there is none) and renames, unless the name has a character
that is not allowed -/
theorem paramOf_spec (derived : Bool) (name : Str) (f : Fields K) :
    (name.any ParamNames.badNameChar = true → paramOf derived (name, .map f) = .error .valueError) ∧
    (name.any ParamNames.badNameChar = false → ∃ i, paramOf derived (name, .map f) = .ok i ∧ i.name = name ∧ i.isDerived = derived ∧
      (f.latex = none → i.label = name) ∧ (∀ c t, f.latex = some (c :: t) → i.label = c :: t) ∧ i.renames = f.renames.getD []) := by
  constructor
  · intro h
    simp only [paramOf, fieldsOf, h]
    rfl
  · intro h
    refine ⟨{ name := name, label := if (f.latex.getD name).isEmpty then name else f.latex.getD name, renames := f.renames.getD [], isDerived := derived }, ?_, rfl, rfl, ?_, ?_, rfl⟩
    · simp only [paramOf, fieldsOf, h]
      rfl
    · intro e
      simp [e]
    · intro c t e
      simp [e]

example : paramOf true (c!"a b", .map ({ } : Fields ℚ)) = .error .valueError := by rfl

end Verif.Cobaya

namespace Verif.Plik
open Verif.Py

/-- **C161**: replacing a text of one character puts the new text for each such character and leaves the others -/
theorem replaceAll_char (c : Char) (new : Str) : ∀ (fuel : Nat) (s : Str), s.length ≤ fuel →
    replaceAll [c] new fuel s = s.flatMap (fun d => if d = c then new else [d])
  | 0, s, h => by
    have : s = [] := List.length_eq_zero_iff.mp (by omega)
    rw [this]; rfl
  | fuel + 1, [], _ => rfl
  | fuel + 1, d :: s, h => by
    have hs : s.length ≤ fuel := by simpa using h
    rw [replaceAll]
    by_cases e : d = c
    · subst e
      simp [List.isPrefixOf, replaceAll_char d new fuel s hs]
    · have e' : ¬ c = d := fun x => e x.symm
      simp [List.isPrefixOf, e, e', replaceAll_char c new fuel s hs]

example : replaceAll c!"a" c!"xy" 9 c!"banana" = c!"bxynxynxy" := by decide

/-- **C161**: the first place of the text to be replaced gets the new text, and replacing goes on after it -/
theorem replaceAll_first (old new : Str) (ho : old ≠ []) : ∀ (fuel : Nat) (a b : Str), a.length + old.length + b.length ≤ fuel →
    (∀ p q, a ++ old ++ b = p ++ old ++ q → a.length ≤ p.length) → ∃ m, fuel ≤ m + a.length + 1 ∧ replaceAll old new fuel (a ++ old ++ b) = a ++ new ++ replaceAll old new m b
  | 0, a, b, h, _ => by
    have := List.length_pos_of_ne_nil ho
    omega
  | fuel + 1, [], b, h, _ => by
    refine ⟨fuel, by simp, ?_⟩
    obtain ⟨c, t, e⟩ := List.exists_cons_of_ne_nil ho
    have hp : old.isPrefixOf (c :: (t ++ b)) = true := by
      rw [List.isPrefixOf_iff_prefix]
      exact ⟨b, by rw [e]; rfl⟩
    have e2 : [] ++ old ++ b = c :: (t ++ b) := by rw [e]; rfl
    rw [e2, replaceAll, if_pos hp]
    have e3 : (c :: (t ++ b)).drop old.length = b := by
      rw [← e2, List.nil_append, List.drop_left]
    rw [e3]; rfl
  | fuel + 1, x :: a, b, h, hf => by
    have hp : old.isPrefixOf (x :: (a ++ old ++ b)) ≠ true := by
      intro hc
      rw [List.isPrefixOf_iff_prefix] at hc
      obtain ⟨q, hq⟩ := hc
      have := hf [] q (by rw [List.nil_append, hq]; simp)
      simp at this
    have hf' : ∀ p q, a ++ old ++ b = p ++ old ++ q → a.length ≤ p.length := by
      intro p q e
      have := hf (x :: p) q (by simp [List.append_assoc] at e ⊢; exact e)
      simpa using this
    obtain ⟨m, hm, e⟩ := replaceAll_first old new ho fuel a b (by simp at h; omega) hf'
    refine ⟨m, by simp; omega, ?_⟩
    have e2 : x :: a ++ old ++ b = x :: (a ++ old ++ b) := rfl
    rw [e2, replaceAll, if_neg hp, e]
    rfl

example : replaceAll c!"an" c!"_" 9 c!"banana" = c!"b__a" := by decide

end Verif.Plik
