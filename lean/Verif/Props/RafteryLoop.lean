import Verif.Props.Raftery
import Verif.Props.Confidence

/-!
# The Raftery and Lewis test: what is reported for a chain
-/

namespace Verif.Raftery
open Verif.Py Verif.Py.Np Verif.Thin

/-! ### thinned chains -/

theorem mapM_length {α β ε : Type} {f : α → Except ε β} : ∀ {l : List α} {r : List β}, l.mapM f = .ok r → r.length = l.length
  | [], r, h => by
    have : r = [] := by injection h with h; exact h.symm
    rw [this]; rfl
  | a :: l, r, h => by
    rw [List.mapM_cons] at h
    cases ha : f a with
    | error e => rw [ha] at h; cases h
    | ok b =>
      cases hl : l.mapM f with
      | error e => rw [ha, hl] at h; cases h
      | ok r' =>
        rw [ha, hl] at h
        injection h with h
        rw [← h, List.length_cons, List.length_cons, mapM_length hl]

theorem thinned_rows {w x y : List ℝ} {f : Nat} (h : thinned w x f = .ok y) : ∃ ix, thinIndices (f : ℝ) w = .ok ix ∧ ix.length = y.length := by
  unfold thinned at h
  cases hi : thinIndices (f : ℝ) w with
  | error e => rw [hi] at h; cases h
  | ok ix =>
    cases ha : Samples.allSome ix with
    | error e => simp only [hi, bind, Except.bind, ha] at h; cases h
    | ok a =>
      simp only [hi, bind, Except.bind, ha] at h
      exact ⟨ix, rfl, by rw [mapM_length h, mapM_length ha]⟩

/-- thinning by `f` leaves fewer than two rows -/
def Small (w : List ℝ) (f : Nat) : Prop := ∃ ix, thinIndices (f : ℝ) w = .ok ix ∧ ix.length < 2

theorem thinned_small {w x y : List ℝ} {f : Nat} (h : thinned w x f = .ok y) : Small w f ↔ y.length < 2 := by
  obtain ⟨ix, h1, h2⟩ := thinned_rows h
  constructor
  · rintro ⟨ix', h3, h4⟩
    rw [h1] at h3
    injection h3 with h3
    rw [← h2, h3]; exact h4
  · intro h3
    exact ⟨ix, h1, by rw [h2]; exact h3⟩

/-- a chain of repeated rows: natural weights, some not zero, and as many values in each column -/
structure Natural (c : Chain) (ws : List Nat) : Prop where
  weights : c.weights = ws.map (Nat.cast : Nat → ℝ)
  some : ∃ w ∈ ws, 0 < w
  cols : ∀ x ∈ c.cols, x.length = ws.length

/-- a factor at least as large as all weights -/
def Covers (ws : List Nat) (f : Nat) : Prop := 0 < f ∧ ∀ w ∈ ws, w ≤ f

theorem thinned_ok (ws : List Nat) (x : List ℝ) (f : Nat) (hne : ws ≠ []) (hx : x.length = ws.length) (hf : Covers ws f) :
    ∃ y, thinned (ws.map (Nat.cast : Nat → ℝ)) x f = .ok y ∧ (y.length = ws.sum / f ∨ y.length = ws.sum / f + 1) := by
  obtain ⟨w0, ws', rfl⟩ := List.exists_cons_of_ne_nil hne
  obtain ⟨ix, h1, h2, _, h4⟩ := thin_sparse_counts (K := ℝ) w0 ws' f hf.1 hf.2
  unfold thinned
  rw [h1]
  have ha : Samples.allSome (ix.map some) = .ok ix := by
    unfold Samples.allSome
    induction ix with
    | nil => rfl
    | cons i ix ih =>
      have : ∀ ix : List Nat, (ix.map some).mapM (fun o => match o with | some i => Except.ok i | none => Except.error NErr.indexError) = .ok ix := by
        intro ix
        induction ix with
        | nil => rfl
        | cons j ix ih => rw [List.map_cons, List.mapM_cons, ih]; rfl
      exact this _
  simp only [bind, Except.bind, ha]
  rw [Confidence.gather_ok x 0 ix (fun i hi => by rw [hx]; exact h4 i hi)]
  exact ⟨_, rfl, by simpa using h2⟩

/-! ### the loops -/

/-- Spec: thinned by `f`, the criterion prefers a Markov chain to one of second order -/
def MarkovOK (w x : List ℝ) (u : ℝ) (f : Nat) : Prop :=
  ∃ y, thinned w x f = .ok y ∧ 2 < y.length ∧ g2Markov (tran3 (binary u y)) < 2 * Real.log ((y.length : ℝ) - 2)

/-- Spec: thinned by `f`, the criterion prefers independent samples to a Markov chain -/
def IndepOK (w x : List ℝ) (u : ℝ) (f : Nat) : Prop :=
  ∃ y, thinned w x f = .ok y ∧ 2 ≤ y.length ∧ g2Indep (tran2 (binary u y)) y.length < Real.log ((y.length : ℝ) - 1)

/-- at least four rows are needed to be taken as Markov -/
theorem MarkovOK.rows {w x : List ℝ} {u : ℝ} {f : Nat} (h : MarkovOK w x u f) : ∃ y, thinned w x f = .ok y ∧ 4 ≤ y.length := by
  obtain ⟨y, h1, h2, h3⟩ := h
  refine ⟨y, h1, ?_⟩
  by_contra hlt
  have : y.length = 3 := by omega
  rw [this] at h3
  have h0 := g2Markov_nonneg (tran3 (binary u y))
  norm_num at h3
  linarith

/-- at least three rows are needed to be taken as independent -/
theorem IndepOK.rows {w x : List ℝ} {u : ℝ} {f : Nat} (h : IndepOK w x u f) : ∃ y, thinned w x f = .ok y ∧ 3 ≤ y.length := by
  obtain ⟨y, h1, h2, h3⟩ := h
  refine ⟨y, h1, ?_⟩
  by_contra hlt
  have hl : y.length = 2 := by omega
  have ht := tran2_total (binary u y) (binary_lt u y)
  have hb : (binary u y).length = y.length := by simp [binary]
  have h0 := g2Indep_nonneg (tran2 (binary u y)) y.length h2 (by rw [ht, hb])
  rw [hl] at h3 h0
  norm_num at h3
  linarith

theorem markovLoop_ok (w x : List ℝ) (u : ℝ) : ∀ (n : Nat) (s s' : St), markovLoop w x u n s = .ok s' →
    s.fac ≤ s'.fac ∧ s'.nburn = s.nburn ∧ s'.hardest = s.hardest ∧ s'.hardestend = s.hardestend ∧
    (Small w s.fac → s'.fac = s.fac) ∧ (∃ y, thinned w x s'.fac = .ok y ∧ s'.rows = y.length) ∧
    (¬ Small w s'.fac → MarkovOK w x u s'.fac ∧ (∃ y, thinned w x s'.fac = .ok y ∧ s'.tran = some (tran3 (binary u y))) ∧
      ∀ f, s.fac ≤ f → f < s'.fac → ¬ MarkovOK w x u f) := by
  intro n
  induction n with
  | zero => intro s s' h; cases h
  | succ n ih =>
    intro s s' h
    unfold markovLoop at h
    cases hy : thinned w x s.fac with
    | error e => rw [hy] at h; cases h
    | ok y =>
      rw [hy] at h
      simp only at h
      by_cases h2 : y.length < 2
      · rw [if_pos h2] at h
        injection h with h
        subst h
        exact ⟨le_refl _, rfl, rfl, rfl, fun _ => rfl, ⟨y, hy, rfl⟩, fun hs => absurd ((thinned_small hy).mpr h2) hs⟩
      · rw [if_neg h2] at h
        by_cases h3 : y.length = 2
        · rw [if_pos h3] at h; cases h
        · rw [if_neg h3] at h
          by_cases h4 : g2Markov (tran3 (binary u y)) - Real.log ((y.length : ℝ) - 2) * 2 < 0
          · rw [if_pos h4] at h
            injection h with h
            subst h
            exact ⟨le_refl _, rfl, rfl, rfl, fun _ => rfl, ⟨y, hy, rfl⟩, fun _ => ⟨⟨y, hy, by omega, by linarith⟩, ⟨y, hy, rfl⟩,
              fun f h1 h2 => absurd h1 (by simp only at h2; omega)⟩⟩
          · rw [if_neg h4] at h
            obtain ⟨a1, a2, a3, a4, _, a6, a7⟩ := ih _ _ h
            simp only at a1 a2 a3 a4 a7
            refine ⟨by omega, a2, a3, a4, fun hs => absurd ((thinned_small hy).mp hs) h2, a6, fun hs => ?_⟩
            obtain ⟨b1, b2, b3⟩ := a7 hs
            refine ⟨b1, b2, ?_⟩
            intro f hf1 hf2
            by_cases hf : f = s.fac
            · rw [hf]
              rintro ⟨y', hy', _, hlt⟩
              rw [hy] at hy'
              injection hy' with hy'
              subst hy'
              apply h4
              linarith
            · exact b3 f (by omega) hf2

theorem indepLoop_ok (w x : List ℝ) (u : ℝ) : ∀ (n : Nat) (s s' : St), indepLoop w x u n s = .ok s' →
    s.fac ≤ s'.fac ∧ s'.nburn = s.nburn ∧ s'.hardest = s.hardest ∧ s'.hardestend = s.hardestend ∧
    (Small w s.fac → s'.fac = s.fac) ∧ (∃ y, thinned w x s'.fac = .ok y ∧ s'.rows = y.length) ∧
    (¬ Small w s'.fac → IndepOK w x u s'.fac ∧ ∀ f, s.fac ≤ f → f < s'.fac → ¬ IndepOK w x u f) := by
  intro n
  induction n with
  | zero => intro s s' h; cases h
  | succ n ih =>
    intro s s' h
    unfold indepLoop at h
    cases hy : thinned w x s.fac with
    | error e => rw [hy] at h; cases h
    | ok y =>
      rw [hy] at h
      simp only at h
      by_cases h2 : y.length < 2
      · rw [if_pos h2] at h
        injection h with h
        subst h
        exact ⟨le_refl _, rfl, rfl, rfl, fun _ => rfl, ⟨y, hy, rfl⟩, fun hs => absurd ((thinned_small hy).mpr h2) hs⟩
      · rw [if_neg h2, if_neg (no_problem _ _ (by omega))] at h
        by_cases h4 : g2Indep (tran2 (binary u y)) y.length - Real.log ((y.length : ℝ) - 1) < 0
        · rw [if_pos h4] at h
          injection h with h
          subst h
          exact ⟨le_refl _, rfl, rfl, rfl, fun _ => rfl, ⟨y, hy, rfl⟩, fun _ => ⟨⟨y, hy, by omega, by linarith⟩,
            fun f h1 h2 => absurd h1 (by simp only at h2; omega)⟩⟩
        · rw [if_neg h4] at h
          obtain ⟨a1, a2, a3, a4, _, a6, a7⟩ := ih _ _ h
          simp only at a1 a2 a3 a4 a7
          refine ⟨by omega, a2, a3, a4, fun hs => absurd ((thinned_small hy).mp hs) h2, a6, fun hs => ?_⟩
          obtain ⟨b1, b3⟩ := a7 hs
          refine ⟨b1, ?_⟩
          intro f hf1 hf2
          by_cases hf : f = s.fac
          · rw [hf]
            rintro ⟨y', hy', _, hlt⟩
            rw [hy] at hy'
            injection hy' with hy'
            subst hy'
            apply h4
            linarith
          · exact b3 f (by omega) hf2

theorem covers_succ {ws : List Nat} {f : Nat} (h : Covers ws f) : Covers ws (f + 1) := ⟨by omega, fun w hw => by have := h.2 w hw; omega⟩

theorem rows_beyond {ws : List Nat} {y : List ℝ} {f : Nat} (h : y.length = ws.sum / f ∨ y.length = ws.sum / f + 1) (hf : ws.sum < f) : y.length < 2 := by
  rw [Nat.div_eq_of_lt hf] at h
  omega

theorem markovLoop_ends (ws : List Nat) (x : List ℝ) (u : ℝ) (hne : ws ≠ []) (hx : x.length = ws.length) : ∀ (n : Nat) (s : St), Covers ws s.fac →
    1 ≤ n → ws.sum + 2 ≤ s.fac + n → ∀ e s', markovLoop (ws.map (Nat.cast : Nat → ℝ)) x u n s = .error (e, s') → e = .other := by
  intro n
  induction n with
  | zero => intro s hc h1; omega
  | succ n ih =>
    intro s hc _ hn e s' h
    obtain ⟨y, hy, hl⟩ := thinned_ok ws x s.fac hne hx hc
    unfold markovLoop at h
    rw [hy] at h
    simp only at h
    split at h
    · cases h
    · split at h
      · injection h with h
        injection h with h _
        exact h.symm
      · split at h
        · cases h
        · by_cases h0 : n = 0
          · have := rows_beyond hl (by omega)
            contradiction
          · exact ih _ (covers_succ hc) (by omega) (by simp only; omega) _ _ h

theorem indepLoop_ends (ws : List Nat) (x : List ℝ) (u : ℝ) (hne : ws ≠ []) (hx : x.length = ws.length) : ∀ (n : Nat) (s : St), Covers ws s.fac →
    1 ≤ n → ws.sum + 2 ≤ s.fac + n → ∃ s', indepLoop (ws.map (Nat.cast : Nat → ℝ)) x u n s = .ok s' := by
  intro n
  induction n with
  | zero => intro s hc h1; omega
  | succ n ih =>
    intro s hc _ hn
    obtain ⟨y, hy, hl⟩ := thinned_ok ws x s.fac hne hx hc
    unfold indepLoop
    rw [hy]
    simp only
    split
    · exact ⟨_, rfl⟩
    · rw [if_neg (no_problem _ _ (by omega))]
      split
      · exact ⟨_, rfl⟩
      · by_cases h0 : n = 0
        · have := rows_beyond hl (by omega)
          contradiction
        · exact ih _ (covers_succ hc) (by omega) (by simp only; omega)

/-! ### one parameter -/

theorem trans_pos (t : Nat → Nat → Nat → Nat) (h : ¬ (trans t 0 1 = 0 ∨ trans t 1 0 = 0)) :
    0 < alpha t ∧ alpha t ≤ 1 ∧ 0 < beta t ∧ beta t ≤ 1 := by
  have h1 : (0 : ℝ) < trans t 0 1 := by exact_mod_cast Nat.pos_of_ne_zero (fun e => h (Or.inl e))
  have h2 : (0 : ℝ) < trans t 1 0 := by exact_mod_cast Nat.pos_of_ne_zero (fun e => h (Or.inr e))
  have h3 : (0 : ℝ) ≤ trans t 0 0 := by positivity
  have h4 : (0 : ℝ) ≤ trans t 1 1 := by positivity
  unfold alpha beta
  refine ⟨by positivity, ?_, by positivity, ?_⟩
  · rw [div_le_one (by positivity)]; linarith
  · rw [div_le_one (by positivity)]; linarith

/-- Spec: transition counts from which a burn in can be found: both states are left, the chain is not periodic, and it has a memory -/
def Mixing (t : Nat → Nat → Nat → Nat) : Prop := 0 < alpha t ∧ 0 < beta t ∧ alpha t + beta t < 2 ∧ alpha t + beta t ≠ 1

theorem burn_ok (s s' : St) (j e : Nat) (h : burn s j e = .ok s') : ∃ t, s.tran = some t ∧ Mixing t ∧
    s'.fac = s.fac ∧ s'.nburn = max s.nburn (burnSteps (alpha t) (beta t) (1 / 1000) * s.fac) ∧
    (s.nburn < burnSteps (alpha t) (beta t) (1 / 1000) * s.fac → s'.hardest = j ∧ s'.hardestend = e) ∧
    (¬ s.nburn < burnSteps (alpha t) (beta t) (1 / 1000) * s.fac → s'.hardest = s.hardest ∧ s'.hardestend = s.hardestend) := by
  unfold burn at h
  cases ht : s.tran with
  | none => rw [ht] at h; cases h
  | some t =>
    rw [ht] at h
    simp only at h
    split at h
    · cases h
    · rename_i hz
      obtain ⟨a1, a2, b1, b2⟩ := trans_pos t hz
      split at h
      · cases h
      · split at h
        · cases h
        · rename_i hne
          split at h
          · cases h
          · rename_i hlog
            have hm : Mixing t := by
              refine ⟨a1, b1, ?_, ?_⟩
              · by_contra hge
                apply hlog
                rw [show alpha t + beta t = 2 by linarith]
                norm_num
              · intro h1
                apply hne
                rw [h1]; norm_num
            split at h
            · rename_i hgt
              injection h with h
              subst h
              exact ⟨t, rfl, hm, rfl, (max_eq_right (le_of_lt hgt)).symm, fun _ => ⟨rfl, rfl⟩, fun hn => absurd hgt hn⟩
            · rename_i hgt
              injection h with h
              subst h
              exact ⟨t, rfl, hm, rfl, (max_eq_left (not_lt.mp hgt)).symm, fun hn => absurd hn hgt, fun _ => ⟨rfl, rfl⟩⟩

theorem burn_err (s s' : St) (j e : Nat) (x : Exc) (h : burn s j e = .error (x, s')) : x = .other ∨ x = .loop ∧ s'.fac = 0 := by
  unfold burn at h
  split at h
  · injection h with h; injection h with h _; exact Or.inl h.symm
  · simp only at h
    split at h
    · injection h with h; injection h with h h'; exact Or.inr ⟨h.symm, by rw [← h']⟩
    · split at h
      · injection h with h; injection h with h _; exact Or.inl h.symm
      · split at h
        · injection h with h; injection h with h _; exact Or.inl h.symm
        · split at h
          · injection h with h; injection h with h _; exact Or.inl h.symm
          · split at h <;> cases h

/-- Spec: at end `e` of parameter `j`, thinned by `f`, the chain passes as Markov, and then needs `n` of its steps as burn in -/
def Need (argsort : List ℝ → List Nat) (selfW : List ℝ) (c : Chain) (conf : ℝ) (j e f : Nat) (n : Int) : Prop :=
  ∃ x u y, c.cols[j]? = some x ∧
    Confidence.confidence argsort selfW x (if e = 0 then 1 - (1 - conf) / 2 else (1 - conf) / 2) false 0 none (some c.weights) = .ok u ∧
    thinned c.weights x f = .ok y ∧ 4 ≤ y.length ∧ g2Markov (tran3 (binary u y)) < 2 * Real.log ((y.length : ℝ) - 2) ∧
    Mixing (tran3 (binary u y)) ∧ n = burnSteps (alpha (tran3 (binary u y))) (beta (tran3 (binary u y))) (1 / 1000) * f

theorem Need.pos {argsort : List ℝ → List Nat} {selfW : List ℝ} {c : Chain} {conf : ℝ} {j e f : Nat} {n : Int} (h : Need argsort selfW c conf j e f n)
    (hf : 0 < f) : 0 < n := by
  obtain ⟨x, u, y, _, _, _, _, _, ⟨h1, h2, h3, h4⟩, rfl⟩ := h
  have := burnSteps_pos _ _ (1 / 1000) h1 h2 h3 h4 (by norm_num) (by norm_num)
  positivity

/-- state after the ends of parameters listed in `P` -/
def Done (argsort : List ℝ → List Nat) (selfW : List ℝ) (c : Chain) (conf : ℝ) (f0 : Nat) (P : Nat → Nat → Prop) (s : St) : Prop :=
  f0 ≤ s.fac ∧ (∀ j e, P j e → ∃ f n, f0 ≤ f ∧ f ≤ s.fac ∧ n ≤ s.nburn ∧ Need argsort selfW c conf j e f n) ∧
  ((∃ j e, P j e) → ∃ j e f, P j e ∧ f0 ≤ f ∧ f ≤ s.fac ∧ s.hardest = j ∧ s.hardestend = e ∧ Need argsort selfW c conf j e f s.nburn) ∧
  ((¬ ∃ j e, P j e) → s.nburn = 0)

theorem end_ok (argsort : List ℝ → List Nat) (selfW : List ℝ) (c : Chain) (conf : ℝ) (f0 : Nat) (hf0 : 0 < f0) (P : Nat → Nat → Prop)
    (j e : Nat) (x : List ℝ) (u : ℝ) (n : Nat) (s s1 s2 : St) (hx : c.cols[j]? = some x)
    (hu : Confidence.confidence argsort selfW x (if e = 0 then 1 - (1 - conf) / 2 else (1 - conf) / 2) false 0 none (some c.weights) = .ok u)
    (h1 : markovLoop c.weights x u n s = .ok s1) (h2 : burn s1 j e = .ok s2) :
    s.fac ≤ s2.fac ∧ (Small c.weights s.fac → s2.fac = s.fac) ∧
    (¬ Small c.weights s2.fac → Done argsort selfW c conf f0 P s → Done argsort selfW c conf f0 (fun j' e' => P j' e' ∨ (j' = j ∧ e' = e)) s2) := by
  obtain ⟨a1, a2, a3, a4, a5, a6, a7⟩ := markovLoop_ok _ _ _ _ _ _ h1
  obtain ⟨t, b1, b2, b3, b4, b5, b6⟩ := burn_ok _ _ _ _ h2
  refine ⟨by omega, fun hs => by rw [b3, a5 hs], ?_⟩
  intro hs hd
  rw [b3] at hs
  obtain ⟨c1, ⟨y, hy, hyt⟩, c3⟩ := a7 hs
  rw [b1] at hyt
  injection hyt with hyt
  subst hyt
  obtain ⟨y', hy', hlen⟩ := c1.rows
  rw [hy] at hy'
  injection hy' with hy'
  subst hy'
  obtain ⟨y'', hy'', _, hlt⟩ := c1
  rw [hy] at hy''
  injection hy'' with hy''
  subst hy''
  have hneed : Need argsort selfW c conf j e s1.fac (burnSteps (alpha (tran3 (binary u y))) (beta (tran3 (binary u y))) (1 / 1000) * s1.fac) :=
    ⟨x, u, y, hx, hu, hy, hlen, hlt, b2, rfl⟩
  obtain ⟨d0, d1, d2, d3⟩ := hd
  rw [a2] at b4 b5 b6
  refine ⟨by omega, ?_, ?_, ?_⟩
  · rintro j' e' (hp | ⟨rfl, rfl⟩)
    · obtain ⟨f, m, g1, g2, g3, g4⟩ := d1 j' e' hp
      exact ⟨f, m, g1, by omega, by rw [b4]; exact le_trans g3 (le_max_left _ _), g4⟩
    · exact ⟨s1.fac, _, by omega, by omega, by rw [b4]; exact le_max_right _ _, hneed⟩
  · intro _
    by_cases hgt : s.nburn < burnSteps (alpha (tran3 (binary u y))) (beta (tran3 (binary u y))) (1 / 1000) * s1.fac
    · refine ⟨j, e, s1.fac, Or.inr ⟨rfl, rfl⟩, by omega, by omega, (b5 hgt).1, (b5 hgt).2, ?_⟩
      rw [b4, max_eq_right (le_of_lt hgt)]
      exact hneed
    · by_cases hP : ∃ j e, P j e
      · obtain ⟨j', e', f, g1, g2, g3, g4, g5, g6⟩ := d2 hP
        refine ⟨j', e', f, Or.inl g1, g2, by omega, by rw [(b6 hgt).1, a3, g4], by rw [(b6 hgt).2, a4, g5], ?_⟩
        rw [b4, max_eq_left (not_lt.mp hgt)]
        exact g6
      · exfalso
        have := hneed.pos (by omega)
        rw [d3 hP] at hgt
        exact hgt this
  · intro hno
    exact absurd ⟨j, e, Or.inr ⟨rfl, rfl⟩⟩ hno

theorem lift_ok {α : Type} {r : Except NErr α} {s : St} {a : α} (h : lift r s = .ok a) : r = .ok a := by
  unfold lift at h
  split at h
  · injection h with h; subst h; rfl
  · cases h

theorem lift_err {α : Type} {r : Except NErr α} {s s' : St} {x : Exc} (h : lift r s = .error (x, s')) : x = .other := by
  unfold lift at h
  split at h
  · cases h
  · injection h with h; injection h with h _; exact h.symm

theorem col_ok {c : Chain} {j : Nat} {s : St} {x : List ℝ} (h : col c j s = .ok x) : c.cols[j]? = some x := by
  unfold col at h
  split at h
  · injection h with h; subst h; assumption
  · cases h

theorem col_err {c : Chain} {j : Nat} {s s' : St} {x : Exc} (h : col c j s = .error (x, s')) : x = .other := by
  unfold col at h
  split at h
  · cases h
  · injection h with h; injection h with h _; exact h.symm

theorem bind_ok {ε α β : Type} {r : Except ε α} {f : α → Except ε β} {b : β} (h : (r >>= f) = .ok b) : ∃ a, r = .ok a ∧ f a = .ok b := by
  cases r with
  | error e => cases h
  | ok a => exact ⟨a, rfl, h⟩

theorem bind_err {ε α β : Type} {r : Except ε α} {f : α → Except ε β} {e : ε} (h : (r >>= f) = .error e) :
    r = .error e ∨ ∃ a, r = .ok a ∧ f a = .error e := by
  cases r with
  | error e' => left; injection (show (Except.error e' : Except ε β) = .error e from h) with h; rw [h]
  | ok a => right; exact ⟨a, rfl, h⟩

theorem param_ok (argsort : List ℝ → List Nat) (selfW : List ℝ) (c : Chain) (conf : ℝ) (f0 : Nat) (hf0 : 0 < f0) (P : Nat → Nat → Prop) (j : Nat)
    (s s' : St) (h : param argsort selfW c (1 - (1 - conf) / 2, (1 - conf) / 2) s j = .ok s') :
    s.fac ≤ s'.fac ∧ (Small c.weights s.fac → s'.fac = s.fac) ∧
    (¬ Small c.weights s'.fac → Done argsort selfW c conf f0 P s → Done argsort selfW c conf f0 (fun j' e' => P j' e' ∨ (j' = j ∧ e' < 2)) s') := by
  unfold param at h
  obtain ⟨x, hx, h⟩ := bind_ok h
  obtain ⟨u0, hu0, h⟩ := bind_ok h
  obtain ⟨u1, hu1, h⟩ := bind_ok h
  obtain ⟨s1, hs1, h⟩ := bind_ok h
  obtain ⟨s2, hs2, h⟩ := bind_ok h
  obtain ⟨s3, hs3, h⟩ := bind_ok h
  have hx := col_ok hx
  have hu0 := lift_ok hu0
  have hu1 := lift_ok hu1
  obtain ⟨a1, a2, a3⟩ := end_ok argsort selfW c conf f0 hf0 P j 0 x u0 _ s s1 s2 hx (by simpa using hu0) hs1 hs2
  obtain ⟨b1, b2, b3⟩ := end_ok argsort selfW c conf f0 hf0 (fun j' e' => P j' e' ∨ (j' = j ∧ e' = 0)) j 1 x u1 _ s2 s3 s' hx (by simpa using hu1) hs3 h
  refine ⟨by omega, ?_, ?_⟩
  · intro hs
    have h1 := a2 hs
    rw [← h1] at hs
    rw [b2 hs, h1]
  · intro hs hd
    have hs2 : ¬ Small c.weights s2.fac := by
      intro hsm
      rw [b2 hsm] at hs
      exact hs hsm
    have hd' := b3 hs (a3 hs2 hd)
    have he : (fun j' e' => P j' e' ∨ (j' = j ∧ e' < 2)) = (fun j' e' => (P j' e' ∨ (j' = j ∧ e' = 0)) ∨ (j' = j ∧ e' = 1)) := by
      funext j' e'
      apply propext
      constructor
      · rintro (h | ⟨h1, h2⟩)
        · exact Or.inl (Or.inl h)
        · rcases (by omega : e' = 0 ∨ e' = 1) with h | h
          · exact Or.inl (Or.inr ⟨h1, h⟩)
          · exact Or.inr ⟨h1, h⟩
      · rintro ((h | ⟨h1, h2⟩) | ⟨h1, h2⟩)
        · exact Or.inl h
        · exact Or.inr ⟨h1, by omega⟩
        · exact Or.inr ⟨h1, by omega⟩
    rw [he]
    exact hd'

theorem params_ok (argsort : List ℝ → List Nat) (selfW : List ℝ) (c : Chain) (conf : ℝ) (f0 : Nat) (hf0 : 0 < f0) :
    ∀ (l : List Nat) (P : Nat → Nat → Prop) (s s' : St), l.foldlM (param argsort selfW c (1 - (1 - conf) / 2, (1 - conf) / 2)) s = .ok s' →
    s.fac ≤ s'.fac ∧ (Small c.weights s.fac → s'.fac = s.fac) ∧
    (¬ Small c.weights s'.fac → Done argsort selfW c conf f0 P s → Done argsort selfW c conf f0 (fun j' e' => P j' e' ∨ (j' ∈ l ∧ e' < 2)) s') := by
  intro l
  induction l with
  | nil =>
    intro P s s' h
    injection h with h
    subst h
    refine ⟨le_refl _, fun _ => rfl, fun _ hd => ?_⟩
    simpa using hd
  | cons j l ih =>
    intro P s s' h
    rw [List.foldlM_cons] at h
    obtain ⟨s1, hs1, h⟩ := bind_ok h
    obtain ⟨a1, a2, a3⟩ := param_ok argsort selfW c conf f0 hf0 P j s s1 hs1
    obtain ⟨b1, b2, b3⟩ := ih (fun j' e' => P j' e' ∨ (j' = j ∧ e' < 2)) s1 s' h
    refine ⟨by omega, ?_, ?_⟩
    · intro hs
      have h1 := a2 hs
      rw [← h1] at hs
      rw [b2 hs, h1]
    · intro hs hd
      have hs2 : ¬ Small c.weights s1.fac := by
        intro hsm
        rw [b2 hsm] at hs
        exact hs hsm
      have hd' := b3 hs (a3 hs2 hd)
      have he : (fun j' e' => P j' e' ∨ (j' ∈ j :: l ∧ e' < 2)) = (fun j' e' => (P j' e' ∨ (j' = j ∧ e' < 2)) ∨ (j' ∈ l ∧ e' < 2)) := by
        funext j' e'
        rw [List.mem_cons]
        apply propext
        tauto
      rw [he]
      exact hd'

/-! ### one chain -/

/-- Spec: the largest weight, as a whole number -/
theorem startFac_nat (ws : List Nat) (hne : ws ≠ []) (hpos : ∃ w ∈ ws, 0 < w) :
    ∃ f, startFac (ws.map (Nat.cast : Nat → ℝ)) = .ok f ∧ Covers ws f ∧ f ∈ ws := by
  obtain ⟨w0, ws', rfl⟩ := List.exists_cons_of_ne_nil hne
  have key : ∀ (l : List Nat) (a : Nat), (l.map (Nat.cast : Nat → ℝ)).foldl max (a : ℝ) = ((l.foldl max a : Nat) : ℝ) := by
    intro l
    induction l with
    | nil => intro a; rfl
    | cons b l ih => intro a; rw [List.map_cons, List.foldl_cons, List.foldl_cons, ← Nat.cast_max, ih]
  have hmem : ∀ (l : List Nat) (a : Nat), l.foldl max a ∈ a :: l ∧ ∀ x ∈ a :: l, x ≤ l.foldl max a := by
    intro l
    induction l with
    | nil => intro a; simp
    | cons b l ih =>
      intro a
      obtain ⟨h1, h2⟩ := ih (max a b)
      rw [List.foldl_cons]
      constructor
      · rcases List.mem_cons.mp h1 with h | h
        · rw [h]
          rcases max_cases a b with ⟨hm, _⟩ | ⟨hm, _⟩ <;> rw [hm] <;> simp
        · simp [h]
      · intro x hx
        have hb := h2 (max a b) (by simp)
        rcases List.mem_cons.mp hx with rfl | hx
        · exact le_trans (le_max_left _ _) hb
        · rcases List.mem_cons.mp hx with rfl | hx
          · exact le_trans (le_max_right _ _) hb
          · exact h2 x (by simp [hx])
  refine ⟨ws'.foldl max w0, ?_, ⟨?_, (hmem ws' w0).2⟩, (hmem ws' w0).1⟩
  · unfold startFac
    rw [List.map_cons]
    simp only [max?, bind, Except.bind, pure, Except.pure]
    rw [key]
    congr 1
    have : ⌊((ws'.foldl max w0 : Nat) : ℝ) + 1 / 2⌋ = ((ws'.foldl max w0 : Nat) : Int) := by
      rw [Int.floor_eq_iff]
      push_cast
      constructor <;> linarith
    rw [this]; simp
  · obtain ⟨w, hw, hp⟩ := hpos
    exact lt_of_lt_of_le hp ((hmem ws' w0).2 w hw)

/-- **C135** What a line of the table says about a chain: thinned by some factor between the largest weight and the first number, every
parameter passes at both ends as a Markov chain; the burn in is the largest of those needed, which are exact (`burnSteps_spec`); and the second
number is the smallest factor from the first on at which the hardest parameter passes as independent samples. -/
theorem chain_spec (argsort : List ℝ → List Nat) (all c : Chain) (conf : ℝ) (nMC : Nat) (s s' : St) (ws : List Nat) (hc : Natural c ws)
    (m f : Nat) (nb : Int) (h : chain argsort all conf nMC s c = .ok (some (some (m, f, nb), s'))) :
    ∃ f0 ∈ ws, Covers ws f0 ∧ f0 ≤ m ∧ m ≤ f ∧
    (∀ j < nMC, ∀ e < 2, ∃ g n, f0 ≤ g ∧ g ≤ m ∧ n ≤ nb ∧ Need argsort all.weights c conf j e g n) ∧
    (0 < nMC → ∃ j < nMC, ∃ e < 2, ∃ g, f0 ≤ g ∧ g ≤ m ∧ Need argsort all.weights c conf j e g nb ∧
      ∃ y x u, all.cols[j]? = some y ∧ c.cols[j]? = some x ∧
        Confidence.confidence argsort all.weights y ((1 - conf) / 2) (e == 0) 0 none none = .ok u ∧
        IndepOK c.weights x u f ∧ ∀ f', m ≤ f' → f' < f → ¬ IndepOK c.weights x u f') := by
  have hne : ws ≠ [] := by obtain ⟨w, hw, _⟩ := hc.some; exact List.ne_nil_of_mem hw
  obtain ⟨f0, hf0, hcov, hmem⟩ := startFac_nat ws hne hc.some
  unfold chain at h
  rw [hc.weights, hf0] at h
  simp only [bind, Except.bind] at h
  cases hb : body argsort all c conf nMC { s with fac := f0, nburn := 0 } with
  | error e =>
    obtain ⟨e, s1⟩ := e
    rw [hb] at h
    cases e <;> simp [pure, Except.pure, throw, throwThe, MonadExceptOf.throw] at h
  | ok r =>
    obtain ⟨s1, mk⟩ := r
    rw [hb] at h
    simp only at h
    split at h
    · simp [pure, Except.pure] at h
    · rename_i hrows
      split at h
      · simp [pure, Except.pure] at h
      · rename_i hfac
        simp only [pure, Except.pure, Except.ok.injEq, Option.some.injEq, Prod.mk.injEq] at h
        obtain ⟨⟨h1, h2, h3⟩, h4⟩ := h
        subst h1 h2 h3 h4
        have hr2 : 2 ≤ s1.rows := by
          by_contra hlt
          exact hrows ⟨hfac, by omega⟩
        unfold body at hb
        obtain ⟨s2, hs2, hb⟩ := bind_ok hb
        simp only at hb
        obtain ⟨y, hy, hb⟩ := bind_ok hb
        obtain ⟨u, hu, hb⟩ := bind_ok hb
        obtain ⟨x, hx, hb⟩ := bind_ok hb
        obtain ⟨s3, hs3, hb⟩ := bind_ok hb
        simp only [pure, Except.pure, Except.ok.injEq, Prod.mk.injEq] at hb
        obtain ⟨hb1, hb2⟩ := hb
        subst hb1 hb2
        have hy := col_ok hy
        have hx := col_ok hx
        have hu := lift_ok hu
        obtain ⟨a1, a2, a3, a4, a5, ⟨yy, a6, a6'⟩, a7⟩ := indepLoop_ok _ _ _ _ _ _ hs3
        simp only at a1 a2 a3 a4 a5 a7
        have hsm : ¬ Small c.weights s3.fac := by
          rw [thinned_small a6, ← a6']; omega
        have hsm2 : ¬ Small c.weights s2.fac := by
          intro hh
          rw [a5 hh] at hsm
          exact hsm hh
        obtain ⟨b1, b2, b3⟩ := params_ok argsort all.weights c conf f0 hcov.1 (List.range nMC) (fun _ _ => False) _ _ hs2
        simp only at b1
        obtain ⟨d0, d1, d2, d3⟩ := b3 hsm2 ⟨le_refl _, by simp, by simp, by simp⟩
        obtain ⟨e1, e2⟩ := a7 hsm
        refine ⟨f0, hmem, hcov, b1, a1, ?_, ?_⟩
        · intro j hj e he
          obtain ⟨g, n, g1, g2, g3, g4⟩ := d1 j e (Or.inr ⟨by simpa using hj, he⟩)
          exact ⟨g, n, g1, g2, by rw [a2]; exact g3, g4⟩
        · intro hpos
          obtain ⟨j, e, g, g1, g2, g3, g4, g5, g6⟩ := d2 ⟨0, 0, Or.inr ⟨by simpa using hpos, by omega⟩⟩
          rcases g1 with g1 | ⟨g1, g1'⟩
          · exact absurd g1 id
          have hj : (max s2.hardest 0).toNat = j := by rw [g4]; simp
          rw [hj] at hy hx
          refine ⟨j, by simpa using g1, e, g1', g, g2, g3, by rw [a2]; exact g6, y, x, u, hy, hx, ?_, e1, e2⟩
          rw [g5] at hu
          exact hu

theorem foldlM_err {ε α β : Type} {f : β → α → Except ε β} {I : β → Prop} {Q : ε → Prop} : ∀ {l : List α} {s : β} {e : ε}, I s →
    (∀ a ∈ l, ∀ s s', I s → f s a = .ok s' → I s') → (∀ a ∈ l, ∀ s e, I s → f s a = .error e → Q e) → l.foldlM f s = .error e → Q e
  | [], _, _, _, _, _, h => by cases h
  | a :: l, s, e, h0, h1, h2, h => by
    rw [List.foldlM_cons] at h
    rcases bind_err h with h | ⟨s', hs', h⟩
    · exact h2 a (by simp) s e h0 h
    · exact foldlM_err (h1 a (by simp) s s' h0 hs') (fun b hb => h1 b (by simp [hb])) (fun b hb => h2 b (by simp [hb])) h

theorem rounds_nat (ws : List Nat) : rounds (ws.map (Nat.cast : Nat → ℝ)) = ws.sum + 2 := by
  unfold rounds
  rw [sum_cast, Int.floor_natCast, Int.toNat_natCast]

/-- **C135** The test ends for chains of repeated rows, whatever the values, and does not leave the function early. -/
theorem body_ends (argsort : List ℝ → List Nat) (all c : Chain) (conf : ℝ) (nMC : Nat) (s : St) (ws : List Nat) (hc : Natural c ws) (hf : Covers ws s.fac)
    (e : Exc) (s' : St) (h : body argsort all c conf nMC s = .error (e, s')) : e = .other ∨ e = .loop ∧ s'.fac = 0 := by
  have hne : ws ≠ [] := by obtain ⟨w, hw, _⟩ := hc.some; exact List.ne_nil_of_mem hw
  have hmono : ∀ f g, Covers ws f → f ≤ g → Covers ws g := fun f g h1 h2 => ⟨by have := h1.1; omega, fun w hw => by have := h1.2 w hw; omega⟩
  have hlen : ∀ j (x : List ℝ), c.cols[j]? = some x → x.length = ws.length := fun j x hx => hc.cols x (List.mem_of_getElem? hx)
  unfold body at h
  rcases bind_err h with h | ⟨s1, hs1, h⟩
  · refine foldlM_err (I := fun s => Covers ws s.fac) (Q := fun e => e.1 = .other ∨ e.1 = .loop ∧ e.2.fac = 0) hf ?_ ?_ h
    · intro j _ s s' hs hp
      exact hmono _ _ hs (param_ok argsort all.weights c conf 1 (by omega) (fun _ _ => False) j s s' hp).1
    · rintro j _ s ⟨e, s'⟩ hs hp
      unfold param at hp
      rcases bind_err hp with hp | ⟨x, hx, hp⟩
      · exact Or.inl (col_err hp)
      rcases bind_err hp with hp | ⟨u0, _, hp⟩
      · exact Or.inl (lift_err hp)
      rcases bind_err hp with hp | ⟨u1, _, hp⟩
      · exact Or.inl (lift_err hp)
      have hxl := hlen j x (col_ok hx)
      rcases bind_err hp with hp | ⟨s1, hs1, hp⟩
      · rw [hc.weights, rounds_nat] at hp
        exact Or.inl (markovLoop_ends ws x u0 hne hxl _ s hs (by omega) (by omega) _ _ hp)
      have c1 := hmono _ _ hs (markovLoop_ok _ _ _ _ _ _ hs1).1
      rcases bind_err hp with hp | ⟨s2, hs2, hp⟩
      · exact burn_err _ _ _ _ _ hp
      obtain ⟨_, _, _, hb3, _⟩ := burn_ok _ _ _ _ hs2
      rcases bind_err hp with hp | ⟨s3, hs3, hp⟩
      · rw [hc.weights, rounds_nat] at hp
        exact Or.inl (markovLoop_ends ws x u1 hne hxl _ s2 (by rw [hb3]; exact c1) (by omega) (by omega) _ _ hp)
      · exact burn_err _ _ _ _ _ hp
  · simp only at h
    have c1 : Covers ws s1.fac := hmono _ _ hf (params_ok argsort all.weights c conf 1 (by omega) _ (fun _ _ => False) _ _ hs1).1
    rcases bind_err h with h | ⟨y, _, h⟩
    · exact Or.inl (col_err h)
    rcases bind_err h with h | ⟨u, _, h⟩
    · exact Or.inl (lift_err h)
    rcases bind_err h with h | ⟨x, hx, h⟩
    · exact Or.inl (col_err h)
    rcases bind_err h with h | ⟨s2, _, h⟩
    · rw [hc.weights, rounds_nat] at h
      obtain ⟨s2, hs2⟩ := indepLoop_ends ws x u hne (hlen _ x (col_ok hx)) (ws.sum + 2) { s1 with hardest := max s1.hardest 0 } c1 (by omega) (by simp only; omega)
      rw [hs2] at h
      cases h
    · cases h

/-- **C135** For chains of repeated rows the table always has one line for every chain. -/
theorem table_ok (argsort : List ℝ → List Nat) (all : Chain) (conf : ℝ) (nMC : Nat) : ∀ (cs : List Chain) (s : St),
    (∀ c ∈ cs, ∃ ws, Natural c ws) → ∃ ls, table argsort all conf nMC s cs = .ok (some ls) ∧ ls.length = cs.length := by
  intro cs
  induction cs with
  | nil => intro s _; exact ⟨[], rfl, rfl⟩
  | cons c cs ih =>
    intro s hn
    obtain ⟨ws, hc⟩ := hn c (by simp)
    have hne : ws ≠ [] := by obtain ⟨w, hw, _⟩ := hc.some; exact List.ne_nil_of_mem hw
    obtain ⟨f0, hf0, hcov, _⟩ := startFac_nat ws hne hc.some
    have key : ∃ l s', chain argsort all conf nMC s c = .ok (some (l, s')) := by
      unfold chain
      rw [hc.weights, hf0]
      simp only [bind, Except.bind]
      cases hb : body argsort all c conf nMC { s with fac := f0, nburn := 0 } with
      | error e =>
        obtain ⟨e, s1⟩ := e
        rcases body_ends argsort all c conf nMC _ ws hc hcov e s1 hb with rfl | ⟨rfl, _⟩
        · exact ⟨_, _, rfl⟩
        · exact ⟨_, _, rfl⟩
      | ok r =>
        obtain ⟨s1, mk⟩ := r
        simp only
        split
        · exact ⟨_, _, rfl⟩
        · split <;> exact ⟨_, _, rfl⟩
    obtain ⟨l, s', hl⟩ := key
    obtain ⟨ls, h1, h2⟩ := ih s' (fun c hc => hn c (by simp [hc]))
    refine ⟨l :: ls, ?_, by simp [h2]⟩
    simp only [table, bind, Except.bind, hl, h1]
    rfl

/-- **C135** A factor is only reported if it leaves at least three rows, so it is at most half of the total weight. -/
theorem indep_half (ws : List Nat) (x : List ℝ) (u : ℝ) (f : Nat) (hne : ws ≠ []) (hx : x.length = ws.length) (hf : Covers ws f)
    (h : IndepOK (ws.map (Nat.cast : Nat → ℝ)) x u f) : 2 * f ≤ ws.sum := by
  obtain ⟨y, hy, hl⟩ := h.rows
  obtain ⟨y', hy', hl'⟩ := thinned_ok ws x f hne hx hf
  rw [hy] at hy'
  injection hy' with hy'
  subst hy'
  have : 2 ≤ ws.sum / f := by omega
  rwa [Nat.le_div_iff_mul_le hf.1] at this

end Verif.Raftery
