import Verif.Props.PlikCoadd
import Verif.Props.SNRead

/-!
# Theorems on the Planck and supernova likelihoods added after changed models went unnoticed
-/

namespace Verif.Plik
open Verif.Py Matrix

section calibration
variable {F : Type} [Field F]

/-- **C162** The calibration of a spectrum is the product of the calibrations of its two maps. -/
theorem calib_maps (c b acmb : Nat → F) (bin i j : Nat) :
    calib (fun _ i j => c i * c j) (fun _ i j => b i * b j) acmb bin i j = (c i * b i * acmb i) * (c j * b j * acmb j) := by
  unfold calib
  ring

/-- **C162** Maps larger by a factor have spectra larger by its square, with their foregrounds. -/
theorem model_scale (cal bal : Nat → Nat → Nat → F) (acmb : Nat → F) (cmb nuis : Nat → Nat → Nat → F) (s : F) (b i j : Nat) :
    modelRq (calib cal bal fun k => s * acmb k) cmb nuis b i j = s ^ 2 * modelRq (calib cal bal acmb) cmb nuis b i j := by
  unfold modelRq calib
  ring

/-- **C162** The differences are zero exactly if the model is the data in every entry that is used, and otherwise they are what has to be added to the data. -/
theorem deltaVec_zero {n : Nat} (oo : Fin n → Nat × Nat × Nat) (model hat : Nat → Nat → Nat → F) :
    deltaVec oo model hat = 0 ↔ ∀ k, model (oo k).1 (oo k).2.1 (oo k).2.2 = hat (oo k).1 (oo k).2.1 (oo k).2.2 := by
  constructor
  · intro h k
    exact sub_eq_zero.mp (congrFun h k)
  · intro h
    funext k
    exact sub_eq_zero.mpr (h k)

/-- Adding the differences to the data gives the model. -/
theorem deltaVec_add {n : Nat} (oo : Fin n → Nat × Nat × Nat) (model hat : Nat → Nat → Nat → F) (k : Fin n) :
    hat (oo k).1 (oo k).2.1 (oo k).2.2 + deltaVec oo model hat k = model (oo k).1 (oo k).2.1 (oo k).2.2 := by
  unfold deltaVec
  ring

/-- **C162** One value for all multipoles is repeated, after zeros up to the first multipole. -/
theorem ttOf_single (first last : Nat) (h : first ≤ last) (mid : List Nat) (v : F) :
    ttOf (first :: mid ++ [last]) [v] = .ok ((List.range (last + 1)).map fun l => if l < first then 0 else v) := by
  have hs : (List.range (last + 1)).map (fun l => if l < first then (0 : F) else v) = List.replicate first 0 ++ List.replicate (last + 1 - first) v := by
    apply List.ext_getElem
    · simp
      omega
    · intro i h1 h2
      simp only [List.length_map, List.length_range] at h1
      rw [List.getElem_map, List.getElem_range, List.getElem_append]
      by_cases hi : i < first
      · rw [if_pos hi, dif_pos (by simpa using hi), List.getElem_replicate]
      · rw [if_neg hi, dif_neg (by simpa using hi), List.getElem_replicate]
  have h1 : (first :: mid ++ [last]).headD 0 = first := rfl
  have h2 : (first :: mid ++ [last]).getLastD 0 = last := by
    rw [List.getLastD_eq_getLast?, List.getLast?_append]
    rfl
  unfold ttOf
  simp only [h1, h2]
  rw [hs, show min first (last + 1) = first by omega]
  by_cases hl : last + 1 - first = 1
  · rw [if_pos (by simpa using hl), hl]
    rfl
  · rw [if_neg (by simpa using hl), if_pos (by simp)]
    rfl

end calibration

/-- Example. -/
example : ttOf [2, 3, 4] [(5 : ℚ)] = .ok [0, 0, 5, 5, 5] ∧ calib (fun _ _ _ => 2) (fun _ _ _ => 3) (fun i => if i = 0 then 5 else 7) 0 0 1 = (210 : ℚ) := by
  constructor <;> decide +kernel

end Verif.Plik

namespace Verif.SN
open Verif.Py Matrix Real

/-- the attribute that a column of a data file becomes -/
def attrOf (c : Str) : Str :=
  if c = c!"mb" then c!"mag"
  else if c = c!"color" then c!"colour"
  else if c = c!"x1" then c!"stretch"
  else if c = c!"3rdvar" then c!"third_var"
  else if c = c!"d3rdvar" then c!"dthird_var"
  else if c = c!"cov_m_s" then c!"cov_mag_stretch"
  else if c = c!"cov_m_c" then c!"cov_mag_colour"
  else if c = c!"cov_s_c" then c!"cov_stretch_colour"
  else c

theorem renameFirst_map (old new : Str) (cs : List Str) (h : cs.count old ≤ 1) : renameFirst old new cs = cs.map fun c => if c = old then new else c := by
  induction cs with
  | nil => rfl
  | cons c cs ih =>
    unfold renameFirst
    by_cases hc : c = old
    · subst hc
      rw [List.count_cons_self] at h
      have h0 : c ∉ cs := List.count_eq_zero.mp (by omega)
      rw [if_pos rfl, List.map_cons, if_pos rfl]
      congr 1
      symm
      rw [List.map_congr_left (g := id), List.map_id]
      intro x hx
      have hne : x ≠ c := fun he => h0 (he ▸ hx)
      simp only [if_neg hne, id]
    · rw [if_neg hc, List.map_cons, if_neg hc, ih]
      rwa [List.count_cons_of_ne hc] at h

theorem foldl_rename (rs : List (Str × Str)) (hd : ∀ r ∈ rs, ∀ r' ∈ rs, r.2 ≠ r'.1) (cs : List Str) (h : ∀ r ∈ rs, cs.count r.1 ≤ 1) :
    rs.foldl (fun cs r => renameFirst r.1 r.2 cs) cs = cs.map fun c => rs.foldl (fun c r => if c = r.1 then r.2 else c) c := by
  induction rs generalizing cs with
  | nil => simp
  | cons r rs ih =>
    rw [List.foldl_cons, renameFirst_map _ _ _ (h r (by simp)), ih (fun a ha b hb => hd a (by simp [ha]) b (by simp [hb])), List.map_map]
    · rfl
    · intro r' hr'
      refine le_trans ?_ (h r' (by simp [hr']))
      rw [List.count_eq_countP, List.countP_map, List.count_eq_countP]
      apply List.countP_mono_left
      intro x _ hx
      simp only [Function.comp, beq_iff_eq] at hx ⊢
      split at hx
      · exact absurd hx (hd r (by simp) r' (by simp [hr']))
      · exact hx

theorem renames_apart : ∀ r ∈ renames, ∀ r' ∈ renames, r.2 ≠ r'.1 := by
  decide +kernel

theorem rename_step (r : Str × Str) (rs : List (Str × Str)) (c : Str) (h : ¬ c = r.1) :
    (r :: rs).foldl (fun c r => if c = r.1 then r.2 else c) c = rs.foldl (fun c r => if c = r.1 then r.2 else c) c := by
  rw [List.foldl_cons, if_neg h]

theorem renames_attr (c : Str) : renames.foldl (fun c r => if c = r.1 then r.2 else c) c = attrOf c := by
  by_cases h0 : c = c!"mb"
  · rw [h0]; decide +kernel
  by_cases h1 : c = c!"color"
  · rw [h1]; decide +kernel
  by_cases h2 : c = c!"x1"
  · rw [h2]; decide +kernel
  by_cases h3 : c = c!"3rdvar"
  · rw [h3]; decide +kernel
  by_cases h4 : c = c!"d3rdvar"
  · rw [h4]; decide +kernel
  by_cases h5 : c = c!"cov_m_s"
  · rw [h5]; decide +kernel
  by_cases h6 : c = c!"cov_m_c"
  · rw [h6]; decide +kernel
  by_cases h7 : c = c!"cov_s_c"
  · rw [h7]; decide +kernel
  unfold attrOf renames
  rw [rename_step _ _ _ h0, if_neg h0]
  rw [rename_step _ _ _ h1, if_neg h1]
  rw [rename_step _ _ _ h2, if_neg h2]
  rw [rename_step _ _ _ h3, if_neg h3]
  rw [rename_step _ _ _ h4, if_neg h4]
  rw [rename_step _ _ _ h5, if_neg h5]
  rw [rename_step _ _ _ h6, if_neg h6]
  rw [rename_step _ _ _ h7, if_neg h7]
  rfl

/-- **C157** Every column of the header gets the attribute of its name. -/
theorem header_names (line : Str) (h : (splitWs line.tail).Nodup) : header line = (splitWs line.tail).map attrOf := by
  unfold header
  rw [foldl_rename renames renames_apart _ (fun r _ => List.nodup_iff_count_le_one.mp h r.1)]
  exact List.map_congr_left fun c _ => renames_attr c

/-- **C157** Columns that the file does not have but that are always used are zero for every supernova; attributes that are not columns are kept. -/
theorem fresh_defaults {K : Type} [Zero K] (len : Nat) (attrs : Dict Str (List K)) (cols : List Str) :
    (∀ c, c = c!"third_var" ∨ c = c!"dthird_var" ∨ c = c!"set" → Dict.get? (fresh len attrs cols) c = some (List.replicate len 0)) ∧
    ∀ c, c ∉ cols → c ≠ c!"third_var" → c ≠ c!"dthird_var" → c ≠ c!"set" → Dict.get? (fresh len attrs cols) c = Dict.get? attrs c := by
  constructor
  · intro c hc
    unfold fresh
    have key : ∀ (cs : List Str) (d : Dict Str (List K)), (c ∈ cs ∨ Dict.get? d c = some (List.replicate len 0)) →
        Dict.get? (cs.foldl (fun d c => Dict.set d c (List.replicate len 0)) d) c = some (List.replicate len 0) := by
      intro cs
      induction cs with
      | nil => intro d h; simpa using h
      | cons x xs ih =>
        intro d h
        rw [List.foldl_cons]
        apply ih
        by_cases hx : c = x
        · subst hx
          exact Or.inr (Dict.get?_set_self _ _ _)
        · rw [Dict.get?_set_of_ne _ _ hx]
          rcases h with h | h
          · rcases List.mem_cons.mp h with h | h
            · exact absurd h hx
            · exact Or.inl h
          · exact Or.inr h
    refine key _ _ (Or.inl ?_)
    rcases hc with rfl | rfl | rfl <;> simp
  · intro c h0 h1 h2 h3
    unfold fresh
    have key : ∀ (cs : List Str) (d : Dict Str (List K)), c ∉ cs → Dict.get? (cs.foldl (fun d c => Dict.set d c (List.replicate len 0)) d) c = Dict.get? d c := by
      intro cs
      induction cs with
      | nil => intro d _; rfl
      | cons x xs ih =>
        intro d h
        rw [List.mem_cons, not_or] at h
        rw [List.foldl_cons, ih _ h.2, Dict.get?_set_of_ne _ _ h.1]
    apply key
    simp only [List.cons_append, List.nil_append, List.mem_cons, not_or]
    exact ⟨h1, h2, h3, h0⟩

/-- Example. -/
example : header c!"#name zcmb mb x1 color 3rdvar\n" = [c!"name", c!"zcmb", c!"mag", c!"stretch", c!"colour", c!"third_var"] ∧
    Dict.get? (fresh 2 ([] : Dict Str (List ℚ)) [c!"mag"]) c!"set" = some [0, 0] := by
  constructor <;> decide +kernel

/-- **C157** The parameters of the grid are those within the ellipse around the centre, and each occurs once. -/
theorem values_spec (g : Marge) :
    (∀ a b : ℝ, (a, b) ∈ g.values ↔ ∃ i j : ℤ, i ^ 2 + j ^ 2 ≤ (g.steps : ℤ) ^ 2 ∧ a = g.ca + i * g.wa ∧ b = g.cb + j * g.wb) ∧
    (g.wa ≠ 0 → g.wb ≠ 0 → g.values.Nodup) := by
  constructor
  · intro a b
    unfold Marge.values
    rw [List.mem_map]
    constructor
    · rintro ⟨p, hp, he⟩
      obtain ⟨rfl, rfl⟩ := Prod.mk.injEq .. ▸ he
      exact ⟨p.1, p.2, ((gridPoints_spec g.steps).2 p).mp hp, rfl, rfl⟩
    · rintro ⟨i, j, hij, rfl, rfl⟩
      exact ⟨(i, j), ((gridPoints_spec g.steps).2 (i, j)).mpr hij, rfl⟩
  · intro ha hb
    unfold Marge.values
    refine (gridPoints_spec g.steps).1.map ?_
    rintro ⟨i, j⟩ ⟨i', j'⟩ he
    simp only [Prod.mk.injEq] at he
    have h1 : (i : ℝ) = i' := mul_right_cancel₀ ha (add_left_cancel he.1)
    have h2 : (j : ℝ) = j' := mul_right_cancel₀ hb (add_left_cancel he.2)
    exact Prod.ext (by exact_mod_cast h1) (by exact_mod_cast h2)

/-- Example. -/
example : ((5 : ℝ), (1 : ℝ)) ∈ Marge.values ⟨1, 2, 1, 3, 1⟩ := ((values_spec _).1 _ _).mpr ⟨1, 0, by norm_num, by norm_num, by norm_num⟩

variable {n : Nat}

/-- **C157** A new object computes the likelihood of any parameters from their own covariance, even if these are zero. -/
theorem start_new (l : Like n) (hl : IsSplit l.split) (hn : 0 < n) (pre : Bool) (dist : Fin n → ℝ) (a b : ℝ) (hab : l.covs.alphabeta = true)
    (hC : (covMat l.data l.covs a b).PosDef) :
    (start l none pre).1 = .ok [] ∧
    ∃ x, (logLike l (start l none pre).2 dist a b).1 = .ok x ∧ exp (-x) = marg l.split (covMat l.data l.covs a b)⁻¹ (residual l (lumDists l.data dist) a b) := by
  constructor
  · simp [start, hab]
  · refine logLike_spec l hl hn _ dist a b hab ?_ hC
    simp [start, hab, isLast]

/-- Example: one supernova. -/
example (d : ℝ) : ∃ x, (logLike ⟨one, oneCov, none⟩ (start ⟨one, oneCov, none⟩ none false).2 ![d] 2 0).1 = .ok x := by
  obtain ⟨-, x, h, -⟩ := start_new ⟨one, oneCov, none⟩ ⟨false, 0, 0, by simp [split]⟩ (by norm_num) false ![d] 2 0 (by simp [oneCov, Covs.alphabeta])
    (by simp only; rw [oneCov_mat]; exact PosDef.one.smul (by norm_num))
  exact ⟨x, h⟩

end Verif.SN
