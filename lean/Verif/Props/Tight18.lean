import Verif.Model.Ticks
import Verif.Model.NumText
import Verif.Model.PlotCalls
import Verif.Model.GaussMix
import Verif.Props.SampleRanges
import Mathlib.Tactic.Linarith
import Mathlib.Tactic.Ring

/-!
# Tightened statements: steps of ticks, base sixty, faded shades, rounds of drawing,
ranges given as a list
-/

namespace Verif.Ticks
open Verif.Py
variable {K : Type} [Field K] [LinearOrder K] [IsStrictOrderedRing K] [FloorRing K]

omit [LinearOrder K] [IsStrictOrderedRing K] [FloorRing K] in
theorem last_eq (a b : K) (m : List K) : (a :: (m ++ [b])).getLastD 0 = b := by
  rw [List.getLastD_eq_getLast?, ← List.cons_append, List.getLast?_concat]
  rfl

omit [IsStrictOrderedRing K] in
/-- **The steps tried are those of the group, a tenth and ten times them.** -/
theorem staircase_mem (g : List K) (x : K) : x ∈ staircase g g ↔ ∃ y ∈ g, x = 1 / 10 * y ∨ x = y ∨ x = 10 * y := by
  unfold staircase
  split
  · rename_i h
    rcases g with _ | ⟨a, g⟩
    · simp at h
    · rcases List.eq_nil_or_concat g with rfl | ⟨m, b, rfl⟩
      · simp at h
      · have hb : 10 * a = b := by
          have := h.2
          rwa [List.concat_eq_append, last_eq] at this
        rw [List.concat_eq_append, ← List.cons_append, List.dropLast_concat, List.cons_append, List.tail_cons]
        subst hb
        simp only [List.mem_append, List.mem_map, List.mem_cons, List.not_mem_nil, or_false]
        constructor
        · rintro ((⟨y, hy | hy, rfl⟩ | h) | ⟨y, hy | hy, rfl⟩)
          · exact ⟨y, .inl hy, .inl rfl⟩
          · exact ⟨y, .inr (.inl hy), .inl rfl⟩
          · exact ⟨x, h, .inr (.inl rfl)⟩
          · exact ⟨y, .inr (.inl hy), .inr (.inr rfl)⟩
          · exact ⟨y, .inr (.inr hy), .inr (.inr rfl)⟩
        · rintro ⟨y, hy, rfl | rfl | rfl⟩
          · rcases hy with hy | hy | hy
            · exact .inl (.inl ⟨y, .inl hy, rfl⟩)
            · exact .inl (.inl ⟨y, .inr hy, rfl⟩)
            · exact .inl (.inr (.inl (by rw [hy]; ring)))
          · exact .inl (.inr hy)
          · rcases hy with hy | hy | hy
            · exact .inl (.inr (.inr (.inr (by rw [hy]))))
            · exact .inr ⟨y, .inl hy, rfl⟩
            · exact .inr ⟨y, .inr hy, rfl⟩
  · simp only [List.mem_append, List.mem_map]
    constructor
    · rintro ((⟨y, hy, rfl⟩ | h) | ⟨y, hy, rfl⟩)
      · exact ⟨y, hy, .inl rfl⟩
      · exact ⟨x, h, .inr (.inl rfl)⟩
      · exact ⟨y, hy, .inr (.inr rfl)⟩
    · rintro ⟨y, hy, rfl | rfl | rfl⟩
      · exact .inl (.inl ⟨y, hy, rfl⟩)
      · exact .inl (.inr hy)
      · exact .inr ⟨y, hy, rfl⟩

example : staircase [1, 2, 10] [1, 2, (10 : ℚ)] = [1 / 10, 1 / 5, 1, 2, 10, 20, 100] := by decide +kernel

/-- **No step is tried twice**: the steps increase when those of the group do and stay within a factor of ten. -/
theorem staircase_increasing (a b : K) (m : List K) (ha : 0 < a) (hs : (a :: m ++ [b]).Pairwise (· < ·)) (hb : b ≤ 10 * a) :
    (staircase (a :: m ++ [b]) (a :: m ++ [b])).Pairwise (· < ·) := by
  have hs' := hs
  rw [List.pairwise_append] at hs
  obtain ⟨h1, -, h3⟩ := hs
  have hlo : ∀ x ∈ a :: m ++ [b], a ≤ x := by
    intro x hx
    rw [List.cons_append, List.mem_cons] at hx
    rcases hx with rfl | hx
    · exact le_rfl
    · rw [List.cons_append, List.pairwise_cons] at hs'
      exact (hs'.1 x hx).le
  have hhi : ∀ x ∈ a :: m, x < b := fun x hx => h3 x hx b (by simp)
  have hle : ∀ x ∈ a :: m ++ [b], x ≤ b := by
    intro x hx
    rw [List.mem_append] at hx
    rcases hx with hx | hx
    · exact (hhi x hx).le
    · rw [List.mem_singleton.mp hx]
  have hmul : ∀ (c : K) (l : List K), 0 < c → l.Pairwise (· < ·) → (l.map (c * ·)).Pairwise (· < ·) := by
    intro c l hc hl
    rw [List.pairwise_map]
    exact hl.imp (fun h => mul_lt_mul_of_pos_left h hc)
  unfold staircase
  split
  · rename_i h
    have e : 10 * a = b := by
      have := h.2
      rwa [List.cons_append, last_eq] at this
    rw [List.dropLast_concat, List.cons_append, List.tail_cons, ← List.cons_append]
    rw [List.pairwise_append, List.pairwise_append]
    refine ⟨⟨hmul _ _ (by norm_num) h1, hs', ?_⟩, hmul _ _ (by norm_num) ?_, ?_⟩
    · intro x hx y hy
      obtain ⟨z, hz, rfl⟩ := List.mem_map.mp hx
      have := hhi z hz
      have := hlo y hy
      linarith
    · rw [List.cons_append, List.pairwise_cons] at hs'
      exact hs'.2
    · intro x hx y hy
      obtain ⟨z, hz, rfl⟩ := List.mem_map.mp hy
      have hz' : a < z := by
        rw [List.cons_append, List.pairwise_cons] at hs'
        exact hs'.1 z hz
      rw [List.mem_append] at hx
      rcases hx with hx | hx
      · obtain ⟨w, hw, rfl⟩ := List.mem_map.mp hx
        have := hhi w hw
        linarith
      · have := hle x hx
        linarith
  · rename_i h
    have hne : 10 * a ≠ b := by
      intro e
      apply h
      refine ⟨by simp, ?_⟩
      rw [List.cons_append, last_eq]; exact e
    have hlt : b < 10 * a := lt_of_le_of_ne hb (Ne.symm hne)
    rw [List.pairwise_append, List.pairwise_append]
    refine ⟨⟨hmul _ _ (by norm_num) hs', hs', ?_⟩, hmul _ _ (by norm_num) hs', ?_⟩
    · intro x hx y hy
      obtain ⟨z, hz, rfl⟩ := List.mem_map.mp hx
      have := hle z hz
      have := hlo y hy
      linarith
    · intro x hx y hy
      obtain ⟨z, hz, rfl⟩ := List.mem_map.mp hy
      have := hlo z hz
      rw [List.mem_append] at hx
      rcases hx with hx | hx
      · obtain ⟨w, hw, rfl⟩ := List.mem_map.mp hx
        have := hle w hw
        linarith
      · have := hle x hx
        linarith

example : staircase [1, 3] [1, (3 : ℚ)] = [1 / 10, 3 / 10, 1, 3, 10, 30] := by decide +kernel

end Verif.Ticks

namespace Verif.NumText
open Verif.Py
variable {K : Type} [Field K] [LinearOrder K] [IsStrictOrderedRing K] [FloorRing K]

/-- the value of the parts: the last counts one, each before it sixty times more -/
def sixty : List K → K
  | [] => 0
  | d :: l => d * 60 ^ l.length + sixty l

omit [LinearOrder K] [IsStrictOrderedRing K] [FloorRing K] in
theorem mapM_length : ∀ (l : List Str) (ds : List K), l.mapM floatStr = some ds → ds.length = l.length
  | [], ds, h => by simp at h; simp [← h]
  | s :: l, ds, h => by
    rw [List.mapM_cons] at h
    cases h1 : (floatStr s : Option K) with
    | none => simp [h1] at h
    | some d =>
      cases h2 : l.mapM (floatStr : Str → Option K) with
      | none => simp [h1, h2] at h
      | some es =>
        simp only [h1, h2, Option.pure_def, Option.bind_eq_bind, Option.bind_some, Option.some.injEq] at h
        rw [← h, List.length_cons, mapM_length l es h2, List.length_cons]

omit [LinearOrder K] [IsStrictOrderedRing K] [FloorRing K] in
/-- **Parts between colons are read in base sixty** -/
theorem base60_value (l : List Str) (v x : K) : base60 v l = some x ↔ ∃ ds, l.mapM floatStr = some ds ∧ x = v * 60 ^ l.length + sixty ds := by
  induction l generalizing v with
  | nil => simp [base60, sixty, eq_comm]
  | cons s l ih =>
    rw [base60]
    cases h : (floatStr s : Option K) with
    | none => simp [h]
    | some d =>
      show base60 (v * 60 + d) l = some x ↔ _
      rw [ih]
      simp only [List.mapM_cons, h, Option.pure_def, Option.bind_eq_bind, Option.bind_some, List.length_cons]
      constructor
      · rintro ⟨ds, h1, rfl⟩
        refine ⟨d :: ds, by simp [h1], ?_⟩
        have hl : ds.length = l.length := mapM_length l ds h1
        rw [sixty, hl]; ring
      · rintro ⟨ds, h1, rfl⟩
        cases h2 : l.mapM (floatStr : Str → Option K) with
        | none => simp [h2] at h1
        | some es =>
          simp only [h2, Option.bind_some, Option.some.injEq] at h1
          subst h1
          have hl : es.length = l.length := mapM_length l es h2
          refine ⟨es, rfl, ?_⟩
          rw [sixty, hl]; ring

example : base60 (0 : ℚ) [c!"1", c!"30", c!"15.5"] = some (1 * 3600 + 30 * 60 + 31 / 2) := by decide +kernel

end Verif.NumText

namespace Verif.PlotCalls

/-- **A third of the shades are faded, at most twenty.** -/
theorem fadeCount_spec (n k : Nat) : k ≤ fadeCount n ↔ 3 * k ≤ n ∧ k ≤ 20 := by
  unfold fadeCount
  omega

example : fadeCount 10 = 3 ∧ fadeCount 80 = 20 := by decide

end Verif.PlotCalls

namespace Verif.GaussMix
open Verif.Py
variable {V : Type}

/-- the blocks kept of one round: those of the components that drew something, within the limits -/
noncomputable def kept (coord : Nat → V → ℝ) (lims : Option (List Lim)) (blocks : List (List V)) : List (List V) :=
  (blocks.filter (!·.isEmpty)).map (cutAll coord lims)

/-- **All rounds count, one after the other**: what is drawn consists of the kept blocks of consecutive rounds; the first asks for the number
wanted, all later ones ask for the same number. -/
theorem simLoop_rounds (coord : Nat → V → ℝ) (lims : Option (List Lim)) (size : Nat) (draw : Nat → Nat → List (List V)) :
    ∀ (fuel r : Nat) (blk : Option Nat) (res out : List (List V)), simLoop coord lims size draw fuel r blk res = some out →
      ∃ n later, (∀ b, blk = some b → later = b) ∧
        out = res ++ kept coord lims (draw r (blk.getD size)) ++ (List.range n).flatMap (fun k => kept coord lims (draw (r + 1 + k) later))
  | 0, r, blk, res, out, h => by simp [simLoop] at h
  | fuel + 1, r, blk, res, out, h => by
    rw [simLoop] at h
    split at h
    · refine ⟨0, blk.getD 0, fun b hb => by simp [hb], ?_⟩
      rw [← Option.some.inj h]
      simp [kept]
    · obtain ⟨n, later, h1, h2⟩ := simLoop_rounds coord lims size draw fuel (r + 1) _ _ out h
      have hl := h1 _ rfl
      refine ⟨n + 1, later, fun b hb => by rw [hl, hb]; rfl, ?_⟩
      rw [h2, List.range_succ_eq_map, List.flatMap_cons, List.flatMap_map, hl]
      simp only [Option.getD_some, List.append_assoc, Nat.add_zero, kept]
      congr 4
      funext k
      rw [show r + 1 + 1 + k = r + 1 + (k + 1) by omega]

example (draw : Nat → Nat → List (List ℝ)) (out : List (List ℝ)) (h : simLoop (fun _ x => x) (some [(some 0, none)]) 3 draw 9 0 none [] = some out) :
    ∃ n later, out = kept (fun _ x => x) (some [(some 0, none)]) (draw 0 3) ++
      (List.range n).flatMap (fun k => kept (fun _ x => x) (some [(some 0, none)]) (draw (k + 1) later)) := by
  obtain ⟨n, later, -, h⟩ := simLoop_rounds _ _ _ _ _ _ _ _ _ h
  refine ⟨n, later, ?_⟩
  simpa [Nat.add_comm] using h

end Verif.GaussMix

namespace Verif.SampleRanges
open Verif.Py Verif.Bounds
variable {K : Type} [Field K]

theorem means_value {l : Lim K} {o : Option K} (h : Means l o) : l.value = .ok o := by
  cases h <;> first | rfl | assumption | simp_all [Lim.value]

theorem setAll_total : ∀ (es : List (Str × Lim K × Lim K)) (b : ParamBounds K), (∀ e ∈ es, ∃ x y, Means e.2.1 x ∧ Means e.2.2 y) →
    ∃ b', setAll b es = (b', none)
  | [], b, _ => ⟨b, rfl⟩
  | e :: es, b, h => by
    obtain ⟨x, y, h1, h2⟩ := h e (by simp)
    have hr : ∃ b1, setRange b e.1 e.2 = (b1, none) := by
      unfold setRange
      rw [means_value h1]
      dsimp only
      rw [means_value h2]
      exact ⟨_, rfl⟩
    obtain ⟨b1, hr⟩ := hr
    rw [setAll, hr]
    exact setAll_total es b1 (fun f hf => h f (by simp [hf]))

/-- **Any list of ranges with at most one for each parameter is accepted**; a list with more is an IndexError. -/
theorem list_total (s : St K) (l : List (Lim K × Lim K)) (h : ∀ r ∈ l, ∃ x y, Means r.1 x ∧ Means r.2 y) :
    (setRanges s (.list l)).2 = if l.length ≤ s.pars.length then none else some .indexError := by
  obtain ⟨b, hb⟩ := setAll_total ((s.pars.map (·.name)).zip l) s.ranges (fun e he => h e.2 (List.of_mem_zip he).2)
  by_cases hl : l.length ≤ s.pars.length
  · have : ¬ s.pars.length < l.length := by omega
    simp [setRanges, newRanges, setList, hb, hl, this]
  · have : s.pars.length < l.length := by omega
    simp [setRanges, newRanges, setList, hb, hl, this]

example : (setRanges (⟨[⟨c!"a", none⟩], {}, false⟩ : St ℚ) (.list [(.num 1, .none)])).2 = none ∧
    (setRanges (⟨[⟨c!"a", none⟩], {}, false⟩ : St ℚ) (.list [(.num 1, .none), (.none, .num 2)])).2 = some .indexError := by
  constructor <;> decide +kernel

end Verif.SampleRanges
