import Mathlib.Analysis.Matrix.PosDef
import Mathlib.Analysis.Real.Sqrt
import Mathlib.Algebra.Order.Star.Real
import Mathlib.Tactic.Linarith
import Mathlib.Tactic.FieldSimp
import Mathlib.Tactic.Ring
import Verif.Model.Plik

/-!
# Names, bins and spectra of the Planck likelihood
-/

namespace Verif.Plik
open Verif.Py Matrix

set_option linter.unusedSectionVars false

/-! ### parameter names -/

theorem fold_get (qs : List (Str × Str)) (d : Dict Str Str) (k : Str) (hn : (qs.map Prod.fst).Nodup) :
    (qs.foldl (fun d q => d.set q.1 q.2) d).get? k = match qs.find? fun q => q.1 = k with
      | some q => some q.2
      | none => d.get? k := by
  induction qs generalizing d with
  | nil => rfl
  | cons q qs ih =>
    rw [List.foldl_cons, ih _ (by simpa using (List.nodup_cons.mp hn).2), List.find?_cons]
    by_cases h : q.1 = k
    · have : qs.find? (fun q => decide (q.1 = k)) = none := by
        rw [List.find?_eq_none]
        intro x hx hxk
        simp only [decide_eq_true_eq] at hxk
        exact (List.nodup_cons.mp hn).1 (by rw [h, ← hxk]; exact List.mem_map_of_mem hx)
      rw [this]
      simp only [h, decide_true]
      exact Dict.get?_set_self _ _ _
    · simp only [h, decide_false]
      rw [Dict.get?_set_of_ne]
      exact fun hh => h hh.symm

theorem zip_fst_sublist (a b : List Str) : ((a.zip b).map Prod.fst).Sublist a := by
  induction a generalizing b with
  | nil => simp
  | cons x a ih =>
    rcases b with _ | ⟨y, b⟩
    · simp
    · simpa using ih b

/-- Each name of the library stands for the name at the same place in the file. -/
theorem translate_spec (clikNames parnames : List Str) (hn : clikNames.Nodup) (i : Nat) (a b : Str) (ha : clikNames[i]? = some a) (hb : parnames[i]? = some b) :
    (translate clikNames parnames).get? a = some b := by
  have hz : (clikNames.zip parnames)[i]? = some (a, b) := by
    rw [List.getElem?_zip_eq_some]
    exact ⟨ha, hb⟩
  have hnd : ((clikNames.zip parnames).map Prod.fst).Nodup := by
    exact hn.sublist (zip_fst_sublist _ _)
  unfold translate
  rw [fold_get _ _ _ hnd]
  have hm : (a, b) ∈ clikNames.zip parnames := List.mem_of_getElem? hz
  rcases hf : (clikNames.zip parnames).find? fun q => q.1 = a with _ | q
  · rw [List.find?_eq_none] at hf
    exact absurd (hf _ hm) (by simp)
  · have hq := List.find?_some hf
    have hqm := List.mem_of_find?_eq_some hf
    simp only [decide_eq_true_eq] at hq
    have := List.inj_on_of_nodup_map hnd hqm hm hq
    rw [hf]
    simp [this]

theorem nuisanceVector_ok {F : Type} (tr : Dict Str Str) (values : Dict Str F) (ps : List Str) (vs : List F) :
    nuisanceVector tr values ps = .ok vs ↔ ps.map (nuisanceOf tr values) = vs.map Except.ok := by
  induction ps generalizing vs with
  | nil => cases vs <;> simp [nuisanceVector]
  | cons p ps ih =>
    rw [nuisanceVector, List.map_cons]
    rcases h : nuisanceOf tr values p with e | v
    · cases vs <;> simp
    · rcases h2 : nuisanceVector tr values ps with e | ws
      · simp only
        constructor
        · intro h; cases h
        · intro hh
          rcases vs with _ | ⟨w, vs⟩
          · simp at hh
          · rw [List.map_cons, List.cons.injEq] at hh
            rw [(ih vs).mpr hh.2] at h2
            cases h2
      · have := (ih ws).mp h2
        simp only [Except.ok.injEq]
        constructor
        · intro hh
          subst hh
          rw [List.map_cons, this]
        · intro hh
          rcases vs with _ | ⟨w, vs⟩
          · simp at hh
          · rw [List.map_cons, List.cons.injEq] at hh
            have h3 := (ih vs).mpr hh.2
            rw [h3] at h2
            simp only [Except.ok.injEq] at h2 hh
            rw [hh.1, h2]

/-- The vector given to the library has, for each of its names, the value of the parameter at the same place in the file. -/
theorem nuisanceVector_spec {F : Type} (clikNames parnames : List Str) (hn : clikNames.Nodup) (hlen : clikNames.length = parnames.length) (values : Dict Str F)
    (vs : List F) (hv : parnames.map values.get? = vs.map some) : nuisanceVector (translate clikNames parnames) values clikNames = .ok vs := by
  rw [nuisanceVector_ok]
  have hl : parnames.length = vs.length := by simpa using congrArg List.length hv
  apply List.ext_getElem?
  intro i
  rw [List.getElem?_map, List.getElem?_map]
  by_cases hi : i < clikNames.length
  · rw [List.getElem?_eq_getElem hi, List.getElem?_eq_getElem (by omega : i < vs.length)]
    simp only [Option.map_some, Option.some.injEq]
    have ht := translate_spec clikNames parnames hn i clikNames[i] parnames[i] (List.getElem?_eq_getElem hi) (List.getElem?_eq_getElem (by omega))
    have h1 : values.get? parnames[i] = some vs[i] := by
      have := congrArg (fun l => l[i]?) hv
      simp only [List.getElem?_map, List.getElem?_eq_getElem (by omega : i < parnames.length), List.getElem?_eq_getElem (by omega : i < vs.length), Option.map_some,
        Option.some.injEq] at this
      exact this
    unfold nuisanceOf
    rw [ht]
    simp only
    rw [h1]
  · rw [List.getElem?_eq_none (by omega), List.getElem?_eq_none (by omega)]
    rfl

/-- Example: parameters in the order of the library. -/
example : nuisanceVector (translate [c!"A_cib", c!"A_sz"] [c!"acib217", c!"asz143"]) [(c!"asz143", 5), (c!"omegabh2", 0), (c!"acib217", 60)] [c!"A_sz", c!"A_cib"] = .ok [5, 60] := by decide

theorem search_spec (ex : Str → Bool) (name : Str) (rs : List Str) (last : Str) :
    searchNames ex name rs last = ((rs.map (candidate name)).find? ex).getD ((rs.map (candidate name)).getLastD last) := by
  induction rs generalizing last with
  | nil => rfl
  | cons r rs ih =>
    rw [searchNames, List.map_cons, List.find?_cons]
    rcases hx : ex (candidate name r) with _ | _
    · simp only [Bool.false_eq_true, if_false]
      rw [ih, List.getLastD_cons]
    · simp

/-- The file of parameter names is the first candidate that exists. -/
theorem namesFile_spec (ex : Str → Bool) (name : Str) (f : Str) (h : (rems.map (candidate name)).find? ex = some f) : namesFile ex name = f := by
  rw [namesFile, search_spec, h]
  rfl

example : namesFile (fun f => f == c!"plik_TT") c!"plik_bin1_TT" = c!"plik_TT" := by decide

/-- Example: version `v22b`. -/
example : namesFile (fun f => f == c!"plik_v22_TT") c!"plik_v22b_bin1_TT" = c!"plik_v22_TT" := by decide

variable {F : Type} [Field F] [DecidableEq F]

/-! ### spectra -/

/-- spectrum that belongs to a position: `C_l` for the first four, zero for the others -/
def trueCl (has : Nat → Bool) (cl : Nat → Nat → F) (llp1 : Nat → F) (i l : Nat) : F := if has i = true ∧ i < 4 then cl i l / llp1 l else 0

theorem spread_spec (has : Nat → Bool) (cl : Nat → Nat → F) (llp1 : Nat → F) (is : List Nat) (hn : is.Nodup) (pre : List (Nat → F)) (cls : Nat → Nat → F) (k l : Nat) :
    spread has (pre ++ orderFrom has cl llp1 is) is pre.length cls k l = if k ∈ is ∧ has k = true then trueCl has cl llp1 k l else cls k l := by
  induction is generalizing pre cls with
  | nil => simp [spread]
  | cons i is ih =>
    have hni := (List.nodup_cons.mp hn).1
    have hnn := (List.nodup_cons.mp hn).2
    rcases hi : has i with _ | _
    · have h1 : spread has (pre ++ orderFrom has cl llp1 (i :: is)) (i :: is) pre.length cls = spread has (pre ++ orderFrom has cl llp1 is) is pre.length cls := by
        simp [spread, orderFrom, hi]
      rw [h1, ih hnn]
      by_cases hki : k = i
      · subst hki; simp [hi]
      · simp [hki]
    · have h1 : ∀ c, spread has (pre ++ orderFrom has cl llp1 (i :: is)) (i :: is) pre.length c =
          spread has ((pre ++ [if i < 4 then (fun l => cl i l / llp1 l) else fun _ => 0]) ++ orderFrom has cl llp1 is) is
            (pre ++ [if i < 4 then (fun l => cl i l / llp1 l) else fun _ => (0 : F)]).length
            (fun k => if k = i then (if i < 4 then (fun l => cl i l / llp1 l) else fun _ => 0) else c k) := by
        intro c
        simp only [spread, orderFrom, hi, if_true, List.length_append, List.length_cons, List.length_nil, Nat.zero_add, List.append_assoc, List.cons_append, List.nil_append]
        congr 1
        funext k
        simp [List.getD]
      rw [h1, ih hnn]
      by_cases hki : k = i
      · subst hki
        simp only [hni, false_and, if_false, if_true, List.mem_cons, true_or, hi, and_self, trueCl, true_and]
        split_ifs <;> rfl
      · simp [hki]

/-- The spectra come back at their own places; those not in the data are zero. -/
theorem clsOf_spec (has : Nat → Bool) (cl : Nat → Nat → F) (llp1 : Nat → F) (k l : Nat) (hk : k < 6) : clsOf has cl llp1 k l = trueCl has cl llp1 k l := by
  have := spread_spec has cl llp1 (List.range 6) List.nodup_range [] (fun _ _ => 0) k l
  rw [List.nil_append, List.length_nil] at this
  unfold clsOf clikOrdering
  rw [this]
  have hm : k ∈ List.range 6 := List.mem_range.mpr hk
  by_cases hh : has k = true
  · simp [hm, hh]
  · simp [hh, trueCl]

example : clsOf (fun i => i ≠ 1) (fun i l => (10 * i + l : ℚ)) (fun l => l) 3 5 = 7 ∧ clsOf (fun i => i ≠ 1) (fun i l => (10 * i + l : ℚ)) (fun l => l) 1 5 = 0 := by decide +kernel

/-- The vector for the library has the spectra of the data, in order. -/
theorem clikOrdering_spec (has : Nat → Bool) (cl : Nat → Nat → F) (llp1 : Nat → F) :
    clikOrdering has cl llp1 = ((List.range 6).filter has).map fun i => trueCl has cl llp1 i := by
  unfold clikOrdering
  generalize List.range 6 = is
  induction is with
  | nil => rfl
  | cons i is ih =>
    rcases hi : has i with _ | _
    · simp [orderFrom, hi, ih]
    · rw [orderFrom, hi, if_pos rfl, ih, List.filter_cons_of_pos hi, List.map_cons]
      congr 1
      funext l
      simp only [trueCl, hi, true_and]
      split_ifs <;> rfl

example : (clikOrdering (fun i => i = 0 || i = 3) (fun i l => (10 * i + l : ℚ)) (fun l => l)).map (fun f => f 5) = [1, 7] := by decide +kernel

/-- kind of a channel: temperature, E, B -/
def kind (mt me i : Nat) : Nat := if i < mt then 0 else if i < mt + me then 1 else 2

/-- position of the spectrum of two kinds -/
def specIx : Nat → Nat → Nat
  | 0, 0 => 0
  | 1, 1 => 1
  | 2, 2 => 2
  | 0, 1 => 3
  | 1, 0 => 3
  | 0, 2 => 4
  | 2, 0 => 4
  | 1, 2 => 5
  | 2, 1 => 5
  | _, _ => 6

/-- channels of temperature, E and B -/
def isT (mt i : Nat) : Bool := decide (i < mt)
def isE (mt me i : Nat) : Bool := decide (mt ≤ i ∧ i < mt + me)
def isB (mt me mb i : Nat) : Bool := decide (mt + me ≤ i ∧ i < mt + me + mb)

/-- a value where both hold -/
def ind (p q : Bool) (v : F) : F := if p && q then v else 0

theorem addBlock_eq (r0 r1 c0 c1 : Nat) (v : F) (rq : Nat → Nat → F) (i j : Nat) (p q : Bool) (hp : p = decide (r0 ≤ i ∧ i < r1)) (hq : q = decide (c0 ≤ j ∧ j < c1)) :
    addBlock r0 r1 c0 c1 v rq i j = rq i j + ind p q v := by
  subst hp hq
  unfold addBlock ind
  by_cases h1 : r0 ≤ i ∧ i < r1
  · by_cases h2 : c0 ≤ j ∧ j < c1
    · simp [h1, h2]
    · have : ¬ (r0 ≤ i ∧ i < r1 ∧ c0 ≤ j ∧ j < c1) := fun h => h2 h.2.2
      rw [if_neg this]
      simp [h2]
  · have : ¬ (r0 ≤ i ∧ i < r1 ∧ c0 ≤ j ∧ j < c1) := fun h => h1 ⟨h.1, h.2.1⟩
    rw [if_neg this]
    simp [h1]

theorem ind_zero (p q : Bool) (v : F) (h : p = false ∨ q = false) : ind p q v = 0 := by
  unfold ind
  rcases h with h | h <;> simp [h]

theorem blocksT_eq (mt me mb : Nat) (s : Nat → F) (rq : Nat → Nat → F) (i j : Nat) :
    blocksT mt me mb s rq i j = rq i j + ind (isT mt i) (isT mt j) (s 0) + ind (isT mt i) (isE mt me j) (s 3) + ind (isE mt me i) (isT mt j) (s 3) +
      ind (isT mt i) (isB mt me mb j) (s 4) + ind (isB mt me mb i) (isT mt j) (s 4) := by
  unfold blocksT
  by_cases hmt : mt = 0
  · rw [if_pos hmt]
    have hT : ∀ k, isT mt k = false := fun k => by simp [isT, hmt]
    simp [ind_zero, hT]
  · rw [if_neg hmt]
    have hE : me = 0 → ∀ k, isE mt me k = false := fun h k => by simp [isE, h]
    have hB : mb = 0 → ∀ k, isB mt me mb k = false := fun h k => by simp [isB, h]
    have hT' : ∀ k, isT mt k = decide (0 ≤ k ∧ k < mt) := fun k => by simp [isT]
    have hB' : ∀ k, isB mt me mb k = decide (mt + me ≤ k ∧ k < mb + mt + me) := fun k => by
      unfold isB
      congr 2
      simp only [eq_iff_iff]
      omega
    by_cases hme : me = 0 <;> by_cases hmb : mb = 0
    · simp only [if_pos hme, if_pos hmb]
      rw [addBlock_eq _ _ _ _ _ _ _ _ _ _ (hT' i) (hT' j)]
      simp [ind_zero, hE hme, hB hmb]
    · simp only [if_pos hme, if_neg hmb]
      rw [addBlock_eq _ _ _ _ _ _ _ _ _ _ (hB' i) (hT' j), addBlock_eq _ _ _ _ _ _ _ _ _ _ (hT' i) (hB' j), addBlock_eq _ _ _ _ _ _ _ _ _ _ (hT' i) (hT' j)]
      simp [ind_zero, hE hme]
    · simp only [if_neg hme, if_pos hmb]
      rw [addBlock_eq _ _ _ _ _ _ _ _ _ _ (show isE mt me i = _ from rfl) (hT' j), addBlock_eq _ _ _ _ _ _ _ _ _ _ (hT' i) (show isE mt me j = _ from rfl),
        addBlock_eq _ _ _ _ _ _ _ _ _ _ (hT' i) (hT' j)]
      simp [ind_zero, hB hmb]
    · simp only [if_neg hme, if_neg hmb]
      rw [addBlock_eq _ _ _ _ _ _ _ _ _ _ (hB' i) (hT' j), addBlock_eq _ _ _ _ _ _ _ _ _ _ (hT' i) (hB' j),
        addBlock_eq _ _ _ _ _ _ _ _ _ _ (show isE mt me i = _ from rfl) (hT' j), addBlock_eq _ _ _ _ _ _ _ _ _ _ (hT' i) (show isE mt me j = _ from rfl),
        addBlock_eq _ _ _ _ _ _ _ _ _ _ (hT' i) (hT' j)]

theorem blocksE_eq (mt me mb : Nat) (s : Nat → F) (rq : Nat → Nat → F) (i j : Nat) :
    blocksE mt me mb s rq i j = rq i j + ind (isE mt me i) (isE mt me j) (s 1) + ind (isE mt me i) (isB mt me mb j) (s 5) + ind (isB mt me mb i) (isE mt me j) (s 5) := by
  unfold blocksE
  have hE : me = 0 → ∀ k, isE mt me k = false := fun h k => by simp [isE, h]
  have hB : mb = 0 → ∀ k, isB mt me mb k = false := fun h k => by simp [isB, h]
  have hB' : ∀ k, isB mt me mb k = decide (mt + me ≤ k ∧ k < mb + mt + me) := fun k => by
    unfold isB
    congr 2
    simp only [eq_iff_iff]
    omega
  by_cases hme : me = 0
  · rw [if_pos hme]
    simp [ind_zero, hE hme]
  · rw [if_neg hme]
    by_cases hmb : mb = 0
    · simp only [if_pos hmb]
      rw [addBlock_eq _ _ _ _ _ _ _ _ _ _ (show isE mt me i = _ from rfl) (show isE mt me j = _ from rfl)]
      simp [ind_zero, hB hmb]
    · simp only [if_neg hmb]
      rw [addBlock_eq _ _ _ _ _ _ _ _ _ _ (hB' i) (show isE mt me j = _ from rfl), addBlock_eq _ _ _ _ _ _ _ _ _ _ (show isE mt me i = _ from rfl) (hB' j),
        addBlock_eq _ _ _ _ _ _ _ _ _ _ (show isE mt me i = _ from rfl) (show isE mt me j = _ from rfl)]

theorem blocksB_eq (mt me mb : Nat) (s : Nat → F) (rq : Nat → Nat → F) (i j : Nat) :
    blocksB mt me mb s rq i j = rq i j + ind (isB mt me mb i) (isB mt me mb j) (s 2) := by
  unfold blocksB
  have hB : mb = 0 → ∀ k, isB mt me mb k = false := fun h k => by simp [isB, h]
  have hB' : ∀ k, isB mt me mb k = decide (mt + me ≤ k ∧ k < mb + mt + me) := fun k => by
    unfold isB
    congr 2
    simp only [eq_iff_iff]
    omega
  by_cases hmb : mb = 0
  · rw [if_pos hmb]
    simp [ind_zero, hB hmb]
  · rw [if_neg hmb, addBlock_eq _ _ _ _ _ _ _ _ _ _ (show isB mt me mb i = _ from rfl) (hB' j)]

theorem kinds (mt me mb i : Nat) (hi : i < mt + me + mb) :
    (kind mt me i = 0 ∧ isT mt i = true ∧ isE mt me i = false ∧ isB mt me mb i = false) ∨
    (kind mt me i = 1 ∧ isT mt i = false ∧ isE mt me i = true ∧ isB mt me mb i = false) ∨
    (kind mt me i = 2 ∧ isT mt i = false ∧ isE mt me i = false ∧ isB mt me mb i = true) := by
  unfold kind isT isE isB
  by_cases h1 : i < mt
  · left
    rw [if_pos h1]
    refine ⟨rfl, by simp [h1], ?_, ?_⟩ <;> rw [decide_eq_false_iff_not] <;> omega
  · rw [if_neg h1]
    by_cases h2 : i < mt + me
    · right; left
      rw [if_pos h2]
      refine ⟨rfl, by simp [h1], ?_, ?_⟩
      · rw [decide_eq_true_iff]; omega
      · rw [decide_eq_false_iff_not]; omega
    · right; right
      rw [if_neg h2]
      refine ⟨rfl, by simp [h1], ?_, ?_⟩
      · rw [decide_eq_false_iff_not]; omega
      · rw [decide_eq_true_iff]; omega

/-- Each pair of channels has the binned spectrum of its kinds. -/
theorem cmbRq_spec (mt me mb : Nat) (B : Bins F) (cls : Nat → Nat → F) (b i j : Nat) (hi : i < mt + me + mb) (hj : j < mt + me + mb) :
    cmbRq mt me mb B cls b i j = binned B (cls (specIx (kind mt me i) (kind mt me j))) b := by
  unfold cmbRq
  rw [blocksB_eq, blocksE_eq, blocksT_eq]
  rcases kinds mt me mb i hi with ⟨k1, a1, a2, a3⟩ | ⟨k1, a1, a2, a3⟩ | ⟨k1, a1, a2, a3⟩ <;>
  rcases kinds mt me mb j hj with ⟨k2, b1, b2, b3⟩ | ⟨k2, b1, b2, b3⟩ | ⟨k2, b1, b2, b3⟩ <;>
  simp [k1, k2, a1, a2, a3, b1, b2, b3, ind, specIx]

/-- The matrix of a bin is symmetric. -/
theorem cmbRq_symm (mt me mb : Nat) (B : Bins F) (cls : Nat → Nat → F) (b i j : Nat) (hi : i < mt + me + mb) (hj : j < mt + me + mb) :
    cmbRq mt me mb B cls b i j = cmbRq mt me mb B cls b j i := by
  rw [cmbRq_spec _ _ _ _ _ _ _ _ hi hj, cmbRq_spec _ _ _ _ _ _ _ _ hj hi]
  have : specIx (kind mt me i) (kind mt me j) = specIx (kind mt me j) (kind mt me i) := by
    unfold kind
    split_ifs <;> rfl
  rw [this]

/-- Example: one channel of each of temperature and E. -/
example : cmbRq 1 1 0 ⟨2, fun _ => 0, fun _ => 1, fun _ => (1 / 2 : ℚ)⟩ (fun k l => 10 * k + l) 0 0 1 = 65 / 2 := by
  norm_num [cmbRq, blocksB, blocksE, blocksT, addBlock, binned, List.range_succ]

/-! ### bins -/

/-- Binning is linear: adding components and binning is binning and adding. -/
theorem nuisanceRq_spec (B : Bins F) (m : Nat) (comps : List (Nat × (Nat → Nat → Nat → F))) (b i j : Nat) :
    nuisanceRq B m comps b i j = binnedShort B (fun l => (comps.map fun p => if p.1 = m ∨ (i < p.1 ∧ j < p.1) then p.2 l i j else 0).sum) b := by
  unfold nuisanceRq
  induction comps with
  | nil => simp [binnedShort]
  | cons p comps ih =>
    rw [List.map_cons, List.sum_cons, ih]
    unfold binnedShort
    rw [← List.sum_map_add]
    congr 1
    apply List.map_congr_left
    intro k _
    simp only [List.map_cons, List.sum_cons]
    rw [add_mul]
    congr 1
    by_cases h1 : p.1 = m
    · simp [h1]
    · simp only [h1, if_false, padded, false_or]

example : nuisanceRq (F := ℚ) ⟨30, fun _ => 0, fun _ => 1, fun _ => 1⟩ 3 [(2, fun l _ _ => l + 1), (3, fun _ _ _ => 5)] 0 0 1 = 13 ∧
    nuisanceRq (F := ℚ) ⟨30, fun _ => 0, fun _ => 1, fun _ => 1⟩ 3 [(2, fun l _ _ => l + 1), (3, fun _ _ _ => 5)] 0 0 2 = 10 := by decide +kernel

/-- The two ways of binning agree: an array that starts at `lmin` is the array from zero without its first entries. -/
theorem binned_short (B : Bins F) (f : Nat → F) (b : Nat) : binnedShort B (fun l => f (B.lmin + l)) b = binned B f b := by
  unfold binnedShort binned
  congr 1
  apply List.map_congr_left
  intro k _
  rw [Nat.add_assoc]

example : binnedShort (F := ℚ) ⟨30, fun _ => 1, fun _ => 3, fun _ => 1 / 3⟩ (fun l => ((30 + l : Nat) : ℚ)) 0 = 32 := by decide +kernel

variable [LinearOrder F] [IsStrictOrderedRing F]

/-- With weights that are not negative and add up to one, a binned quantity is between its least and largest value in the bin: so is the multipole of a bin. -/
theorem binned_between (B : Bins F) (f : Nat → F) (b : Nat) (lo hi : F) (hw : ∀ l, 0 ≤ B.ws l) (h1 : binnedShort B (fun _ => 1) b = 1)
    (hf : ∀ k, B.blmin b ≤ k → k ≤ B.blmax b → lo ≤ f (B.lmin + k) ∧ f (B.lmin + k) ≤ hi) : lo ≤ binned B f b ∧ binned B f b ≤ hi := by
  unfold binnedShort at h1
  unfold binned
  have hmem : ∀ k ∈ List.range (B.blmax b + 1 - B.blmin b), lo ≤ f (B.lmin + B.blmin b + k) ∧ f (B.lmin + B.blmin b + k) ≤ hi := by
    intro k hk
    rw [List.mem_range] at hk
    rw [Nat.add_assoc]
    exact hf _ (by omega) (by omega)
  generalize List.range (B.blmax b + 1 - B.blmin b) = ks at *
  constructor
  · calc lo = lo * (ks.map fun k => 1 * B.ws (B.blmin b + k)).sum := by rw [h1, mul_one]
      _ = (ks.map fun k => lo * (1 * B.ws (B.blmin b + k))).sum := (List.sum_map_mul_left _ _ _).symm
      _ ≤ _ := by
        apply List.sum_le_sum
        intro k hk
        rw [one_mul]
        exact mul_le_mul_of_nonneg_right (hmem k hk).1 (hw _)
  · calc _ ≤ (ks.map fun k => hi * (1 * B.ws (B.blmin b + k))).sum := by
          apply List.sum_le_sum
          intro k hk
          rw [one_mul]
          exact mul_le_mul_of_nonneg_right (hmem k hk).2 (hw _)
      _ = hi * (ks.map fun k => 1 * B.ws (B.blmin b + k)).sum := List.sum_map_mul_left _ _ _
      _ = hi := by rw [h1, mul_one]

example : binned (F := ℚ) ⟨30, fun _ => 0, fun _ => 1, fun k => if k = 0 then 1 / 4 else 3 / 4⟩ (fun l => if l = 30 then 4 else 8) 0 = 7 := by decide +kernel

/-- Example: the multipole of the bin 30 to 34. -/
example : binned (F := ℚ) ⟨30, fun _ => 0, fun _ => 4, fun _ => 1 / 5⟩ (fun l => l) 0 = 32 := by
  norm_num [binned, List.range_succ]

end Verif.Plik
