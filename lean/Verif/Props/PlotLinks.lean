import Verif.Model.PlotLinks

/-!
# Linked axes of triangle plots

The range of each parameter is the same wherever the parameter is shown, after the figure is made and after any sequence of changes
made on its subplots.
-/

namespace Verif.PlotLinks

set_option linter.unusedSectionVars false
variable {R : Type} [DecidableEq R]

/-! ## Specification -/

/-- the parameter whose range a port shows; none for the probability axis of a 1D plot -/
def par : Port → Option Nat
  | (.cell c _, .x) => some c
  | (.cell c r, .y) => if c = r then none else some r
  | (.twin, _) => some 0

/-- every place that shows parameter `k` has the range `f k` -/
def Linked (m : Mode) (n : Nat) (f : Nat → R) (st : St R) : Prop :=
  ∀ (p : Port) (k : Nat), exists' m n p.1 = true → par p = some k → st p = f k

/-! ## Setting one range -/

theorem setLim_succ (m : Mode) (n fuel : Nat) (st : St R) (p : Port) (v : R) : setLim m n (fuel + 1) st p v =
    match callback m n p with
    | .none => .ok (spread m (set1 st p v) p)
    | .broken => .error .attribute
    | .to t =>
      if set1 st p v p = set1 st p v t then .ok (spread m (set1 st p v) p)
      else match setLim m n fuel (set1 st p v) t (set1 st p v p) with
        | .error e => .error e
        | .ok st2 => .ok (spread m st2 p) := rfl

theorem set1_self (st : St R) (p : Port) (v : R) : set1 st p v p = v := by simp [set1]

theorem set1_ne (st : St R) {p q : Port} (v : R) (h : q ≠ p) : set1 st p v q = st q := by simp [set1, h]

/-- sharing is the relation "same class" for the classes `S` -/
theorem shares_self (m : Mode) (p : Port) : shares m p p = true := by
  obtain ⟨a, d⟩ := p
  cases a <;> cases d <;> simp [shares]

/-- no callback: the range is set in all axes that share it -/
theorem setLim_none {m : Mode} {n fuel : Nat} (st : St R) {p : Port} (v : R) (h : callback m n p = .none) :
    ∃ st', setLim m n (fuel + 1) st p v = .ok st' ∧ ∀ q, st' q = if shares m p q then v else st q := by
  refine ⟨_, by rw [setLim_succ, h], fun q => ?_⟩
  unfold spread
  rw [set1_self]
  by_cases hq : shares m p q = true
  · simp [hq]
  · simp only [hq]
    have : q ≠ p := fun e => hq (e ▸ shares_self m p)
    simp [set1_ne st v this]

/-- a cycle of callbacks `p → t → u` with `u` in the class of `p`, starting from one common range `a` -/
theorem setLim_cycle {m : Mode} {n fuel : Nat} (st : St R) {p t u : Port} (a v : R) (hp : callback m n p = .to t)
    (ht : callback m n t = .none ∨ callback m n t = .to u) (hu : callback m n u = .none ∨ callback m n u = .to t)
    (hpu : shares m p u = true) (hsym : ∀ q, shares m u q = shares m p q) (hpt : shares m p t = false)
    (hta : st t = a) :
    ∃ st', setLim m n (fuel + 3) st p v = .ok st' ∧ ∀ q, (shares m t q = true → st q = a) →
      st' q = if shares m p q || shares m t q then v else st q := by
  have hne : t ≠ p := fun e => by
    rw [e, shares_self] at hpt
    exact absurd hpt (by decide)
  have hnu : u ≠ t := fun e => by
    rw [e, hpt] at hpu
    exact absurd hpu (by decide)
  have hpself := shares_self m p
  rw [setLim_succ, hp]
  dsimp only
  rw [set1_self, set1_ne st v hne, hta]
  by_cases hva : v = a
  · rw [if_pos hva]
    refine ⟨_, rfl, fun q hT => ?_⟩
    unfold spread
    rw [set1_self]
    by_cases hq : shares m p q = true
    · simp [hq]
    · have hqp : q ≠ p := fun e => hq (e ▸ hpself)
      by_cases hq2 : shares m t q = true
      · simp [hq, hq2, set1_ne st a hqp, hT hq2, hva]
      · simp [hq, hq2, set1_ne st v hqp]
  · rw [if_neg hva]
    have key : ∃ st2, setLim m n (fuel + 2) (set1 st p v) t v = .ok st2 ∧ st2 p = v ∧
        ∀ q, shares m p q = false → st2 q = if shares m t q then v else st q := by
      rw [setLim_succ]
      rcases ht with ht | ht
      · rw [ht]
        refine ⟨_, rfl, ?_, fun q hq => ?_⟩
        · unfold spread
          rw [set1_self]
          by_cases hs : shares m t p = true
          · simp [hs]
          · simp [hs, set1_ne _ v (Ne.symm hne), set1_self]
        · unfold spread
          rw [set1_self]
          by_cases hs : shares m t q = true
          · simp [hs]
          · have h1 : q ≠ t := fun e => hs (e ▸ shares_self m t)
            have h2 : q ≠ p := fun e => by
              rw [e, hpself] at hq
              exact absurd hq (by decide)
            simp [hs, set1_ne _ v h1, set1_ne st v h2]
      · rw [ht]
        dsimp only
        rw [set1_self, set1_ne _ v hnu]
        by_cases hup : v = set1 st p v u
        · rw [if_pos hup]
          refine ⟨_, rfl, ?_, fun q hq => ?_⟩
          · unfold spread
            rw [set1_self]
            by_cases hs : shares m t p = true
            · simp [hs]
            · simp [hs, set1_ne _ v (Ne.symm hne), set1_self]
          · unfold spread
            rw [set1_self]
            by_cases hs : shares m t q = true
            · simp [hs]
            · have h1 : q ≠ t := fun e => hs (e ▸ shares_self m t)
              have h2 : q ≠ p := fun e => by
                rw [e, hpself] at hq
                exact absurd hq (by decide)
              simp [hs, set1_ne _ v h1, set1_ne st v h2]
        · rw [if_neg hup]
          have inner : setLim m n (fuel + 1) (set1 (set1 st p v) t v) u v =
              .ok (spread m (set1 (set1 (set1 st p v) t v) u v) u) := by
            rw [setLim_succ]
            rcases hu with hu | hu
            · rw [hu]
            · rw [hu]
              dsimp only
              rw [set1_self, set1_ne _ v (Ne.symm hnu), set1_self, if_pos rfl]
          rw [inner]
          dsimp only
          have htt : shares m t t = true := shares_self m t
          have hut : shares m u t = false := by rw [hsym, hpt]
          have hval : spread m (set1 (set1 (set1 st p v) t v) u v) u t = v := by
            unfold spread
            rw [hut]
            simp [set1_ne _ v (Ne.symm hnu), set1_self]
          refine ⟨_, rfl, ?_, fun q hq => ?_⟩
          · rw [spread, hval]
            by_cases hs : shares m t p = true
            · simp [hs]
            · simp only [hs]
              unfold spread
              rw [set1_self, hsym, hpself]
              simp
          · rw [spread, hval]
            by_cases hs : shares m t q = true
            · simp [hs]
            · simp only [hs]
              unfold spread
              rw [hsym, hq]
              have h1 : q ≠ t := fun e => hs (e ▸ shares_self m t)
              have h2 : q ≠ p := fun e => by
                rw [e, hpself] at hq
                exact absurd hq (by decide)
              have h3 : q ≠ u := fun e => by
                rw [e, hpu] at hq
                exact absurd hq (by decide)
              simp [set1_ne _ v h1, set1_ne _ v h2, set1_ne _ v h3]
    obtain ⟨st2, h2, hv2, hq2⟩ := key
    rw [h2]
    refine ⟨_, rfl, fun q _ => ?_⟩
    unfold spread
    rw [hv2]
    by_cases hq : shares m p q = true
    · simp [hq]
    · simp only [hq, Bool.false_or]
      rw [hq2 q (by simpa using hq)]
      simp

theorem beq_dec (a b : Nat) : (a == b) = decide (b = a) := by
  rw [Bool.eq_iff_iff, beq_iff_eq, decide_eq_true_eq]
  exact eq_comm

/-! ## Which changes are carried over -/

/-- the subplots on which a change of the range reaches all places of the parameter: all without `upper_roots`; with `upper_roots` not the x
axis of the upper plots and of the first 1D plot; with `upper_label_right` nothing that shows the first parameter -/
def Carried (m : Mode) : Port → Prop
  | (.cell c r, .x) => match m with
    | .lower => True
    | .left => c ≤ r ∧ (c ≠ 0 ∨ r ≠ 0)
    | .right => c ≤ r ∧ c ≠ 0
  | (.cell c r, .y) => c ≠ r ∧ match m with
    | .right => r ≠ 0
    | _ => True
  | (.twin, _) => False

theorem carried_step {m : Mode} {n fuel : Nat} {f : Nat → R} {st : St R} (hl : Linked m n f st) {p : Port} {k : Nat} (v : R)
    (he : exists' m n p.1 = true) (hk : par p = some k) (hc : Carried m p) :
    ∃ st', setLim m n (fuel + 3) st p v = .ok st' ∧ Linked m n (Function.update f k v) st' := by
  -- the ports of one parameter are those that share a range with `p` or with the port its callback sets
  have fin : ∀ (t : Port) (st' : St R), (∀ q k', exists' m n q.1 = true → par q = some k' → (shares m p q || shares m t q) = decide (k' = k)) →
      st t = f k → (∀ q, (shares m t q = true → st q = f k) → st' q = if shares m p q || shares m t q then v else st q) →
      Linked m n (Function.update f k v) st' := by
    intro t st' hcls htk hst q k' hq hk'
    have h1 := hcls q k' hq hk'
    have h2 : shares m t q = true → st q = f k := fun h => by
      rw [h, Bool.or_true] at h1
      have : k' = k := of_decide_eq_true h1.symm
      rw [hl q k' hq hk', this]
    rw [hst q h2, h1]
    by_cases hkk : k' = k
    · simp [hkk]
    · simp [hkk, hl q k' hq hk']
  obtain ⟨a, d⟩ := p
  cases a with
  | twin => exact absurd hc (by simp [Carried])
  | cell c r =>
    have hcn : c < n ∧ r < n ∧ (m = .lower → c ≤ r) := by
      simp only [exists', Bool.and_eq_true, decide_eq_true_eq, Bool.or_eq_true, bne_iff_ne, ne_eq] at he
      exact ⟨he.1.1, he.1.2, fun hm => he.2.resolve_left (fun h => h hm)⟩
    obtain ⟨hcn, hrn, hlow⟩ := hcn
    cases d with
    | x =>
      obtain rfl : c = k := by simpa [par] using hk
      have hcr : c ≤ r := by
        cases m
        · exact hlow rfl
        · exact hc.1
        · exact hc.1
      by_cases hc0 : c = 0
      · subst hc0
        cases m with
        | lower =>
          have hcb : callback .lower n ((.cell 0 r, .x) : Port) = .none := by
            by_cases hr : 0 = r <;> simp [callback, hr]
          obtain ⟨st', h1, h2⟩ := setLim_none (m := .lower) (n := n) (fuel := fuel + 2) st v hcb
          refine ⟨st', h1, fun q k' hq hk' => ?_⟩
          rw [h2]
          obtain ⟨b, d⟩ := q
          cases b with
          | twin => simp [exists'] at hq
          | cell c' r' =>
            cases d with
            | x =>
              obtain rfl : c' = k' := by simpa [par] using hk'
              by_cases h0 : 0 = c'
              · subst h0; simp [shares]
              · simp [shares, h0, Function.update_of_ne (Ne.symm h0), hl (.cell c' r', .x) c' hq rfl]
            | y =>
              have hh : c' ≠ r' ∧ r' = k' := by
                by_cases h : c' = r'
                · simp [par, h] at hk'
                · exact ⟨h, by simpa [par, h] using hk'⟩
              obtain ⟨hne, rfl⟩ := hh
              have hpos : r' ≠ 0 := by
                simp [exists'] at hq
                omega
              simp [shares, Function.update_of_ne hpos, hl (.cell c' r', .y) r' hq hk']
        | left =>
          have hr : r ≠ 0 := by
            rcases hc.2 with h | h
            · exact absurd rfl h
            · exact h
          have hcb : callback .left n ((.cell 0 r, .x) : Port) = .to (.twin, .y) := by
            simp [callback, Ne.symm hr, Nat.pos_of_ne_zero hr]
          have htw : st (.twin, .y) = f 0 := hl (.twin, .y) 0 (by simp [exists']; omega) rfl
          obtain ⟨st', h1, h2⟩ := setLim_cycle (fuel := fuel) (u := (.cell 0 r, .x)) st (f 0) v hcb (Or.inl rfl) (Or.inr hcb)
            (shares_self _ _) (fun _ => rfl) (by simp [shares]) htw
          refine ⟨st', h1, fin (.twin, .y) st' (fun q k' hq hk' => ?_) htw h2⟩
          obtain ⟨b, d⟩ := q
          cases b with
          | twin =>
            obtain rfl : 0 = k' := by simpa [par] using hk'
            cases d <;> simp [shares]
          | cell c' r' =>
            cases d with
            | x =>
              obtain rfl : c' = k' := by simpa [par] using hk'
              simp [shares, beq_dec]
            | y =>
              have hh : c' ≠ r' ∧ r' = k' := by
                by_cases h : c' = r'
                · simp [par, h] at hk'
                · exact ⟨h, by simpa [par, h] using hk'⟩
              obtain ⟨hne, rfl⟩ := hh
              by_cases h0 : r' = 0
              · subst h0; simp [shares, hne]
              · simp [shares, h0]
        | right => exact absurd rfl hc.2
      · have hpos : 0 < c := Nat.pos_of_ne_zero hc0
        have hcb : callback m n ((.cell c r, .x) : Port) = .to (.cell 0 c, .y) := by
          by_cases h : c = r
          · simp [callback, ← h, hpos]
          · simp [callback, h, hpos, Nat.lt_of_le_of_ne hcr h]
        have hct : callback m n ((.cell 0 c, .y) : Port) = .to (.cell c (n - 1), .x) := by
          simp [callback, Ne.symm hc0]
        have hcu : callback m n ((.cell c (n - 1), .x) : Port) = .to (.cell 0 c, .y) := by
          by_cases h : c = n - 1
          · simp only [callback, if_pos h, if_pos hpos]
          · have h2 : c < n - 1 := by omega
            simp only [callback, if_neg h, if_pos hpos, if_pos h2]
        have htk : st (.cell 0 c, .y) = f c := hl (.cell 0 c, .y) c (by simp [exists', hcn]; omega) (by simp [par, Ne.symm hc0])
        obtain ⟨st', h1, h2⟩ := setLim_cycle (fuel := fuel) (u := (.cell c (n - 1), .x)) st (f c) v hcb (Or.inr hct) (Or.inr hcu)
          (by simp [shares]) (fun q => by obtain ⟨b, d⟩ := q; cases b <;> cases d <;> rfl) (by simp [shares]) htk
        refine ⟨st', h1, fin (.cell 0 c, .y) st' (fun q k' hq hk' => ?_) htk h2⟩
        obtain ⟨b, d⟩ := q
        cases b with
        | twin =>
          obtain rfl : 0 = k' := by simpa [par] using hk'
          cases d <;> simp [shares, hc0, Ne.symm hc0]
        | cell c' r' =>
          cases d with
          | x =>
            obtain rfl : c' = k' := by simpa [par] using hk'
            simp [shares, beq_dec]
          | y =>
            have hh : c' ≠ r' ∧ r' = k' := by
              by_cases h : c' = r'
              · simp [par, h] at hk'
              · exact ⟨h, by simpa [par, h] using hk'⟩
            obtain ⟨hne, rfl⟩ := hh
            by_cases h : r' = c
            · subst h; simp [shares, hne, hc0, Ne.symm hc0]
            · simp [shares, h, Ne.symm h]
    | y =>
      have hh : c ≠ r ∧ r = k := by
        by_cases h : c = r
        · simp [par, h] at hk
        · exact ⟨h, by simpa [par, h] using hk⟩
      obtain ⟨hne, rfl⟩ := hh
      have hcb : callback m n ((.cell c r, .y) : Port) = .to (.cell r (n - 1), .x) := by simp [callback, hne]
      have htk : st (.cell r (n - 1), .x) = f r :=
        hl (.cell r (n - 1), .x) r (by
          simp only [exists', Bool.and_eq_true, decide_eq_true_eq, Bool.or_eq_true]
          exact ⟨⟨hrn, by omega⟩, Or.inr (by omega)⟩) rfl
      by_cases hr0 : r = 0
      · subst hr0
        have hm : m = .left := by
          cases m with
          | lower => exact absurd (hlow rfl) (by omega)
          | left => rfl
          | right => exact absurd rfl hc.2
        subst hm
        have hn : 0 < n - 1 := by omega
        have hct : callback .left n ((.cell 0 (n - 1), .x) : Port) = .to (.twin, .y) := by
          simp [callback, hn, Nat.ne_of_lt hn]
        obtain ⟨st', h1, h2⟩ := setLim_cycle (fuel := fuel) (u := (.twin, .y)) st (f 0) v hcb (Or.inr hct) (Or.inl rfl)
          (by simp [shares, hne]) (fun q => by
            obtain ⟨b, d⟩ := q
            cases b with
            | twin => cases d <;> simp [shares, hne]
            | cell c' r' =>
              cases d with
              | x => simp [shares]
              | y =>
                rw [Bool.eq_iff_iff]
                simp [shares]
                omega) (by simp [shares]) htk
        refine ⟨st', h1, fin (.cell 0 (n - 1), .x) st' (fun q k' hq hk' => ?_) htk h2⟩
        obtain ⟨b, d⟩ := q
        cases b with
        | twin =>
          obtain rfl : 0 = k' := by simpa [par] using hk'
          cases d <;> simp [shares, hne]
        | cell c' r' =>
          cases d with
          | x =>
            obtain rfl : c' = k' := by simpa [par] using hk'
            simp [shares, beq_dec]
          | y =>
            have hh : c' ≠ r' ∧ r' = k' := by
              by_cases h : c' = r'
              · simp [par, h] at hk'
              · exact ⟨h, by simpa [par, h] using hk'⟩
            obtain ⟨hne', rfl⟩ := hh
            by_cases h : r' = 0
            · subst h; simp [shares, hne, hne']
            · simp [shares, h, Ne.symm h]
      · have hpos : 0 < r := Nat.pos_of_ne_zero hr0
        have hct : callback m n ((.cell r (n - 1), .x) : Port) = .to (.cell 0 r, .y) := by
          by_cases h : r = n - 1
          · simp only [callback, if_pos h, if_pos hpos]
          · have h2 : r < n - 1 := by omega
            simp only [callback, if_neg h, if_pos hpos, if_pos h2]
        have hcu : callback m n ((.cell 0 r, .y) : Port) = .to (.cell r (n - 1), .x) := by
          simp [callback, Ne.symm hr0]
        obtain ⟨st', h1, h2⟩ := setLim_cycle (fuel := fuel) (u := (.cell 0 r, .y)) st (f r) v hcb (Or.inr hct) (Or.inr hcu)
          (by simp [shares, hne, hr0, Ne.symm hr0]) (fun q => by
            obtain ⟨b, d⟩ := q
            cases b with
            | twin => cases d <;> simp [shares, hr0]
            | cell c' r' =>
              cases d with
              | x => simp [shares]
              | y =>
                rw [Bool.eq_iff_iff]
                simp [shares, hr0]
                omega) (by simp [shares]) htk
        refine ⟨st', h1, fin (.cell r (n - 1), .x) st' (fun q k' hq hk' => ?_) htk h2⟩
        obtain ⟨b, d⟩ := q
        cases b with
        | twin =>
          obtain rfl : 0 = k' := by simpa [par] using hk'
          cases d <;> simp [shares, hr0, Ne.symm hr0]
        | cell c' r' =>
          cases d with
          | x =>
            obtain rfl : c' = k' := by simpa [par] using hk'
            simp [shares, beq_dec]
          | y =>
            have hh : c' ≠ r' ∧ r' = k' := by
              by_cases h : c' = r'
              · simp [par, h] at hk'
              · exact ⟨h, by simpa [par, h] using hk'⟩
            obtain ⟨hne', rfl⟩ := hh
            by_cases h : r' = r
            · subst h; simp [shares, hne, hne', hr0]
            · simp [shares, h, Ne.symm h]

/-- without `upper_roots`: after any changes on any subplots each parameter has, wherever it is shown, the range it was last given -/
theorem lower_linked {n : Nat} : ∀ (ops : List (Port × R)) {f : Nat → R} {st : St R}, Linked .lower n f st →
    (∀ o ∈ ops, exists' .lower n o.1.1 = true ∧ (par o.1).isSome) →
    ∃ st', setMany .lower n 3 st ops = .ok st' ∧
      Linked .lower n (fun k => ((ops.reverse.find? (fun o => par o.1 == some k)).map (·.2)).getD (f k)) st' := by
  intro ops
  induction ops with
  | nil => intro f st h _; exact ⟨st, rfl, h⟩
  | cons o ops ih =>
    intro f st h hops
    obtain ⟨p, v⟩ := o
    obtain ⟨he, hp⟩ := hops (p, v) (by simp)
    obtain ⟨k, hk⟩ := Option.isSome_iff_exists.mp hp
    have hcar : Carried .lower p := by
      obtain ⟨a, d⟩ := p
      cases a with
      | twin => simp [exists'] at he
      | cell c r =>
        cases d with
        | x => trivial
        | y =>
          refine ⟨fun e => ?_, trivial⟩
          simp [par, e] at hk
    obtain ⟨st1, h1, hl1⟩ := carried_step (fuel := 0) h v he hk hcar
    obtain ⟨st', h2, hl2⟩ := ih hl1 (fun o ho => hops o (by simp [ho]))
    refine ⟨st', by rw [setMany, h1]; exact h2, ?_⟩
    intro q k' hq hk'
    rw [hl2 q k' hq hk']
    dsimp only
    rw [List.reverse_cons, List.find?_append]
    cases hf : ops.reverse.find? (fun o => par o.1 == some k') with
    | some o => simp
    | none =>
      by_cases hkk : k = k'
      · subst hkk; simp [hk]
      · have : (par p == some k') = false := by simp [hk, hkk]
        simp [this, Function.update_of_ne (Ne.symm hkk)]

example : (setMany .lower 3 3 (fun p => (par p).getD 9) [((.cell 1 2, .y), 20), ((.cell 1 1, .x), 10), ((.cell 0 2, .y), 21)]).map
    (fun st => ([0, 1, 2].map (fun k => st (.cell k k, .x)), [st (.cell 0 1, .y), st (.cell 0 2, .y), st (.cell 1 2, .y)])) =
    .ok ([0, 10, 21], [10, 21, 21]) := by decide

/-- the full statement for all figures: a change on any subplot reaches all places that show the parameter -/
def AllLinked : Prop :=
  ∀ (m : Mode) (n : Nat) (f : Nat → Nat) (st : St Nat), Linked m n f st → ∀ (c r k : Nat) (d : Dir) (v : Nat), exists' m n (.cell c r) = true →
    par (.cell c r, d) = some k → ∃ st', setLim m n 3 st (.cell c r, d) v = .ok st' ∧ Linked m n (Function.update f k v) st'

/-- with or without `upper_roots`: changes on the carried subplots (missing: the x axes of the upper plots and of the first 1D plot, and
the first parameter with `upper_label_right`) -/
theorem linked_partial {m : Mode} {n fuel : Nat} {f : Nat → R} {st : St R} (hl : Linked m n f st) {p : Port} {k : Nat} (v : R)
    (he : exists' m n p.1 = true) (hk : par p = some k) (hc : Carried m p) :
    ∃ st', setLim m n (fuel + 3) st p v = .ok st' ∧ Linked m n (Function.update f k v) st' := carried_step hl v he hk hc

/-- With `upper_roots` a change of the x range of a plot in the upper triangle reaches the whole column but not the row of the same parameter: the
upper plots only get the callback for y (plots.py:2525-2526), so the y ranges of the lower plots keep the old range. -/
theorem upper_x_fails : ¬ ∀ (n : Nat) (f : Nat → Nat) (st : St Nat), Linked .left n f st → ∀ (c r v : Nat), c < n → r < c →
    ∃ st', setLim .left n 3 st (.cell c r, .x) v = .ok st' ∧ Linked .left n (Function.update f c v) st' := by
  intro h
  obtain ⟨st', h1, h2⟩ := h 2 (fun _ => 0) (fun _ => 0) (fun _ _ _ _ => rfl) 1 0 5 (by decide) (by decide)
  have h3 := h2 (.cell 0 1, .y) 1 (by decide) (by decide)
  have h4 : setLim .left 2 3 (fun _ => (0 : Nat)) (.cell 1 0, .x) 5 =
      .ok (spread .left (set1 (fun _ => 0) (.cell 1 0, .x) 5) (.cell 1 0, .x)) := rfl
  rw [h4] at h1
  obtain rfl := Except.ok.inj h1
  revert h3
  decide

/-- With `upper_roots` the first 1D plot has no callback (plots.py:2435 connects only `i > 0`): a change of its range reaches the first column but
not the first row of the upper triangle. -/
theorem first_diagonal_fails : ¬ ∀ (n : Nat) (f : Nat → Nat) (st : St Nat), Linked .left n f st → ∀ v : Nat, 0 < n →
    ∃ st', setLim .left n 3 st (.cell 0 0, .x) v = .ok st' ∧ Linked .left n (Function.update f 0 v) st' := by
  intro h
  obtain ⟨st', h1, h2⟩ := h 2 (fun _ => 0) (fun _ => 0) (fun _ _ _ _ => rfl) 5 (by decide)
  have h3 := h2 (.cell 1 0, .y) 0 (by decide) (by decide)
  have h4 : setLim .left 2 3 (fun _ => (0 : Nat)) (.cell 0 0, .x) 5 =
      .ok (spread .left (set1 (fun _ => 0) (.cell 0 0, .x) 5) (.cell 0 0, .x)) := rfl
  rw [h4] at h1
  obtain rfl := Except.ok.inj h1
  revert h3
  decide

/-- With `upper_label_right` any change of the x range of a 2D plot in the first column raises an AttributeError: `label_ax = self.subplots[0, bottom]`
(plots.py:2452) is read before that subplot is made, so the callback (2494-2497) calls `None.get_ylim()`. -/
theorem right_label_fails {n r : Nat} (hr : 0 < r) (st : St R) (fuel : Nat) (v : R) :
    setLim .right n (fuel + 1) st (.cell 0 r, .x) v = .error .attribute := by
  have : callback .right n (.cell 0 r, .x) = .broken := by simp [callback, Nat.ne_of_lt hr, hr]
  rw [setLim_succ, this]

theorem all_linked_fails : ¬ AllLinked := by
  intro h
  refine upper_x_fails (fun n f st hl c r v hc hr => ?_)
  exact h .left n f st hl c r c .x v (by simp [exists', hc]; omega) rfl

example : exists' .right 2 (.cell 0 1) = true := by decide

/-! ## The figure as made -/

theorem raw_eq (m : Mode) (st : St R) (p : Port) (v : R) (q : Port) : raw m st p v q = if shares m p q then v else st q := by
  unfold raw spread
  rw [set1_self]
  by_cases hq : shares m p q = true
  · simp [hq]
  · have : q ≠ p := fun e => hq (e ▸ shares_self m p)
    simp [hq, set1_ne st v this]

/-- the columns of parameter `k` have its range -/
def Xs (m : Mode) (lims : Nat → R) (st : St R) (k : Nat) : Prop :=
  (∀ r, st (.cell k r, .x) = lims k) ∧ (k = 0 → m = .left → st (.twin, .x) = lims 0)

/-- the row of parameter `k` has its range -/
def Ys (lims : Nat → R) (st : St R) (k : Nat) : Prop := ∀ c, c ≠ k → st (.cell c k, .y) = lims k

/-- the first row of the upper triangle, after the plots up to column `j` -/
def Row0 (m : Mode) (n : Nat) (lims : Nat → R) (i j : Nat) (st : St R) : Prop := match m with
  | .lower => True
  | .left => Ys lims st 0 ∧ st (.twin, .y) = lims 0
  | .right => ∀ c, 0 < c → c < n → c ≤ j ∨ 0 < i → st (.cell c 0, .y) = lims 0

def Stage (m : Mode) (n : Nat) (lims : Nat → R) (i j : Nat) (st : St R) : Prop :=
  (∀ k, k < n → k ≠ i → Xs m lims st k) ∧ (∀ k, 0 < k → k < n → k ≤ j ∨ 0 < i → Ys lims st k) ∧ Row0 m n lims i j st

theorem raw_xx (m : Mode) (st : St R) (a b c r : Nat) (v : R) :
    raw m st (.cell a b, .x) v (.cell c r, .x) = if a = c then v else st (.cell c r, .x) := by
  rw [raw_eq]; simp [shares]

theorem raw_xy (m : Mode) (st : St R) (a b c r : Nat) (v : R) : raw m st (.cell a b, .x) v (.cell c r, .y) = st (.cell c r, .y) := by
  rw [raw_eq]; simp [shares]

theorem raw_yx (m : Mode) (st : St R) (a b c r : Nat) (v : R) : raw m st (.cell a b, .y) v (.cell c r, .x) = st (.cell c r, .x) := by
  rw [raw_eq]; simp [shares]

theorem raw_yy (m : Mode) (st : St R) (a b c r : Nat) (hab : a ≠ b) (hcr : c ≠ r) (v : R) : raw m st (.cell a b, .y) v (.cell c r, .y) =
    if b = r ∧ (b ≠ 0 ∨ m = .left ∨ a = c) then v else st (.cell c r, .y) := by
  rw [raw_eq]
  refine ite_congr (propext ?_) (fun _ => rfl) (fun _ => rfl)
  simp only [shares, Bool.or_eq_true, Bool.and_eq_true, beq_iff_eq, bne_iff_ne, ne_eq]
  constructor
  · rintro (⟨h1, h2⟩ | ⟨⟨⟨h1, _⟩, _⟩, h2 | h2⟩)
    · exact ⟨h2, Or.inr (Or.inr h1)⟩
    · exact ⟨h1, Or.inl h2⟩
    · exact ⟨h1, Or.inr (Or.inl h2)⟩
  · rintro ⟨h1, h2 | h2 | h2⟩
    · exact Or.inr ⟨⟨⟨h1, hab⟩, hcr⟩, Or.inl h2⟩
    · exact Or.inr ⟨⟨⟨h1, hab⟩, hcr⟩, Or.inr h2⟩
    · exact Or.inl ⟨h2, h1⟩

theorem raw_tx (m : Mode) (st : St R) (a b : Nat) (v : R) :
    raw m st (.cell a b, .x) v (.twin, .x) = if a = 0 ∧ m = .left then v else st (.twin, .x) := by
  rw [raw_eq]; simp [shares]

theorem raw_ty (m : Mode) (st : St R) (a b : Nat) (v : R) :
    raw m st (.cell a b, .y) v (.twin, .y) = if b = 0 ∧ a ≠ 0 ∧ m = .left then v else st (.twin, .y) := by
  rw [raw_eq]; simp [shares, and_assoc]

theorem raw_txy (m : Mode) (st : St R) (a b : Nat) (v : R) : raw m st (.cell a b, .x) v (.twin, .y) = st (.twin, .y) := by
  rw [raw_eq]; simp [shares]

theorem raw_tyx (m : Mode) (st : St R) (a b : Nat) (v : R) : raw m st (.cell a b, .y) v (.twin, .x) = st (.twin, .x) := by
  rw [raw_eq]; simp [shares]

theorem pairStep_x (m : Mode) (n : Nat) (g : Port → R) (lims : Nat → R) {i i2 : Nat} (_h : i < i2) (st : St R) (c r : Nat) :
    pairStep m n g lims i st i2 (.cell c r, .x) = if c = i2 ∧ m ≠ .lower then lims i2 else if c = i then
      (if i2 = n - 1 then lims i else g (.cell i i2, .x)) else st (.cell c r, .x) := by
  simp only [pairStep, ite_apply, raw_xx, raw_yx]
  by_cases hm : m = .lower
  · simp only [if_pos hm, if_neg (show ¬ (c = i2 ∧ m ≠ .lower) from fun e => e.2 hm)]
    by_cases hc : i = c
    · simp [hc]
    · simp [hc, Ne.symm hc]
  · simp only [if_neg hm]
    by_cases hc2 : i2 = c
    · simp [hc2, hm]
    · simp only [if_neg hc2, if_neg (show ¬ (c = i2 ∧ m ≠ .lower) from fun e => hc2 e.1.symm)]
      by_cases hc : i = c
      · simp [hc]
      · simp [hc, Ne.symm hc]

theorem pairStep_y (m : Mode) (n : Nat) (g : Port → R) (lims : Nat → R) {i i2 : Nat} (h : i < i2) (st : St R) (c r : Nat) (hcr : c ≠ r) :
    pairStep m n g lims i st i2 (.cell c r, .y) = if r = i2 then lims i2 else if m ≠ .lower ∧ r = i ∧ (i ≠ 0 ∨ m = .left ∨ c = i2) then lims i
      else st (.cell c r, .y) := by
  have h1 : i ≠ i2 := by omega
  have h0 : i2 ≠ 0 := by omega
  simp only [pairStep, ite_apply, raw_xy, raw_yy _ _ _ _ _ _ h1 hcr, raw_yy _ _ _ _ _ _ h1.symm hcr]
  by_cases hr : i2 = r
  · subst hr
    have : ¬ (i = i2 ∧ (i ≠ 0 ∨ m = .left ∨ i2 = c)) := fun e => h1 e.1
    simp [h0, this]
  · have hr' : ¬ (i2 = r ∧ (i2 ≠ 0 ∨ m = .left ∨ i = c)) := fun e => hr e.1
    simp only [if_neg hr', if_neg (Ne.symm hr), ite_self]
    by_cases hm : m = .lower
    · simp [hm]
    · simp only [if_neg hm]
      by_cases hc : i = r ∧ (i ≠ 0 ∨ m = .left ∨ i2 = c)
      · have : m ≠ .lower ∧ r = i ∧ (i ≠ 0 ∨ m = .left ∨ c = i2) := ⟨hm, hc.1.symm, hc.2.imp_right (fun e => e.imp_right Eq.symm)⟩
        simp only [if_pos hc, if_pos this]
      · have : ¬ (m ≠ .lower ∧ r = i ∧ (i ≠ 0 ∨ m = .left ∨ c = i2)) :=
          fun e => hc ⟨e.2.1.symm, e.2.2.imp_right (fun e => e.imp_right Eq.symm)⟩
        simp only [if_neg hc, if_neg this]

theorem pairStep_tx (n : Nat) (g : Port → R) (lims : Nat → R) {i i2 : Nat} (h : i < i2) (st : St R) :
    pairStep .left n g lims i st i2 (.twin, .x) = if i = 0 then (if i2 = n - 1 then lims 0 else g (.cell 0 i2, .x)) else st (.twin, .x) := by
  have h0 : i2 ≠ 0 := by omega
  simp only [pairStep, ite_apply, raw_tx, raw_tyx]
  by_cases hi : i = 0
  · subst hi; simp [h0]
  · simp [hi, h0]

theorem pairStep_ty (n : Nat) (g : Port → R) (lims : Nat → R) {i i2 : Nat} (h : i < i2) (st : St R) :
    pairStep .left n g lims i st i2 (.twin, .y) = if i = 0 then lims 0 else st (.twin, .y) := by
  have h0 : i2 ≠ 0 := by omega
  simp only [pairStep, ite_apply, raw_ty, raw_txy]
  by_cases hi : i = 0
  · subst hi; simp [h0]
  · simp [hi, h0]

theorem stage_step {m : Mode} {n : Nat} (g : Port → R) {lims : Nat → R} {i j : Nat} {st : St R} (h : Stage m n lims i j st) (hij : i ≤ j) :
    Stage m n lims i (j + 1) (pairStep m n g lims i st (j + 1)) ∧ (j + 1 = n - 1 → Xs m lims (pairStep m n g lims i st (j + 1)) i) := by
  obtain ⟨hx, hy, h0⟩ := h
  have hlt : i < j + 1 := by omega
  refine ⟨⟨fun k hkn hk => ⟨fun r => ?_, fun hk0 hm => ?_⟩, fun k hk0 hkn hk c hc => ?_, ?_⟩, fun hn => ⟨fun r => ?_, fun hi hm => ?_⟩⟩
  · rw [pairStep_x m n g lims hlt]
    split_ifs with h1
    · rw [h1.1]
    · exact (hx k hkn hk).1 r
  · subst hm hk0
    rw [pairStep_tx n g lims hlt, if_neg (Ne.symm hk)]
    exact (hx 0 hkn hk).2 rfl rfl
  · rw [pairStep_y m n g lims hlt st c k hc]
    split_ifs with h1 h2
    · rw [h1]
    · rw [h2.2.1]
    · refine hy k hk0 hkn ?_ c hc
      omega
  · cases m with
    | lower => trivial
    | left =>
      refine ⟨fun c hc => ?_, ?_⟩
      · rw [pairStep_y .left n g lims hlt st c 0 hc, if_neg (show ¬ 0 = j + 1 by omega)]
        split_ifs with h2
        · rw [h2.2.1]
        · exact h0.1 c hc
      · rw [pairStep_ty n g lims hlt]
        split_ifs
        · rfl
        · exact h0.2
    | right =>
      intro c hc hcn hcj
      rw [pairStep_y .right n g lims hlt st c 0 (by omega), if_neg (show ¬ 0 = j + 1 by omega)]
      by_cases h2 : Mode.right ≠ Mode.lower ∧ 0 = i ∧ (i ≠ 0 ∨ Mode.right = Mode.left ∨ c = j + 1)
      · rw [if_pos h2, h2.2.1]
      · rw [if_neg h2]
        refine h0 c hc hcn ?_
        by_cases hi : i = 0
        · left
          have : c ≠ j + 1 := fun e => h2 ⟨by decide, hi.symm, Or.inr (Or.inr e)⟩
          omega
        · right; omega
  · rw [pairStep_x m n g lims hlt]
    rw [if_neg (fun e => absurd e.1 (by omega)), if_pos rfl, if_pos hn]
  · subst hm hi
    rw [pairStep_tx n g lims hlt, if_pos rfl, if_pos hn]

theorem stage_fold {m : Mode} {n : Nat} (g : Port → R) {lims : Nat → R} {i : Nat} : ∀ (len j : Nat) (st : St R), i ≤ j → j + len = n - 1 → Stage m n lims i j st →
    (len = 0 → Xs m lims st i) →
    Stage m n lims i (n - 1) ((List.range' (j + 1) len).foldl (pairStep m n g lims i) st) ∧
    Xs m lims ((List.range' (j + 1) len).foldl (pairStep m n g lims i) st) i := by
  intro len
  induction len with
  | zero =>
    intro j st _ hj h hx
    obtain rfl : j = n - 1 := by omega
    exact ⟨h, hx rfl⟩
  | succ len ih =>
    intro j st hij hj h _
    obtain ⟨h1, h2⟩ := stage_step g h hij
    rw [List.range'_succ, List.foldl_cons]
    exact ih (j + 1) _ (by omega) (by omega) h1 (fun h0 => h2 (by omega))

/-- all columns, and the rows once the first column of plots is done -/
def Begun (m : Mode) (n : Nat) (lims : Nat → R) (i : Nat) (st : St R) : Prop :=
  (∀ k, k < n → Xs m lims st k) ∧ (0 < i → ∀ k, 0 < k → k < n → Ys lims st k) ∧ Row0 m n lims i i st

theorem begun_step {m : Mode} {n : Nat} (g : Port → R) {lims : Nat → R} {i : Nat} (hi : i < n) {st : St R} (h : Begun m n lims i st) :
    Begun m n lims (i + 1) (columnStep m n g lims st i) := by
  obtain ⟨hx, hy, h0⟩ := h
  have hst : Stage m n lims i i st := ⟨fun k hk _ => hx k hk, fun k hk0 hkn hk => hy (by omega) k hk0 hkn, h0⟩
  obtain ⟨⟨h1, h2, h3⟩, h4⟩ := stage_fold g (n - 1 - i) i st (Nat.le_refl i) (by omega) hst (fun _ => hx i hi)
  refine ⟨fun k hk => ?_, fun _ k hk0 hkn => h2 k hk0 hkn (by omega), ?_⟩
  · by_cases hki : k = i
    · rw [hki]; exact h4
    · exact h1 k hk hki
  · cases m with
    | lower => trivial
    | left => exact h3
    | right => exact fun c hc hcn _ => h3 c hc hcn (by omega)

theorem begun_fold {m : Mode} {n : Nat} (g : Port → R) {lims : Nat → R} : ∀ (len i : Nat) (st : St R), i + len ≤ n → Begun m n lims i st →
    Begun m n lims (i + len) ((List.range' i len).foldl (columnStep m n g lims) st) := by
  intro len
  induction len with
  | zero => intro i st _ h; exact h
  | succ len ih =>
    intro i st hi h
    rw [List.range'_succ, List.foldl_cons]
    have := ih (i + 1) _ (by omega) (begun_step g (by omega) h)
    rwa [Nat.add_assoc, Nat.add_comm 1 len] at this

theorem diagonal_fold {m : Mode} {lims : Nat → R} : ∀ (len i : Nat) (st : St R), (∀ k, k < i → Xs m lims st k) →
    ∀ k, k < i + len → Xs m lims ((List.range' i len).foldl (diagonalStep m lims) st) k := by
  intro len
  induction len with
  | zero => intro i st h k hk; exact h k hk
  | succ len ih =>
    intro i st h k hk
    rw [List.range'_succ, List.foldl_cons]
    refine ih (i + 1) _ (fun k hk => ?_) k (by omega)
    by_cases hki : i = k
    · subst hki
      refine ⟨fun r => by rw [diagonalStep, raw_xx, if_pos rfl], fun h0 hm => ?_⟩
      rw [diagonalStep, raw_tx, if_pos ⟨h0, hm⟩, h0]
    · refine ⟨fun r => by rw [diagonalStep, raw_xx, if_neg hki]; exact (h k (by omega)).1 r, fun h0 hm => ?_⟩
      rw [diagonalStep, raw_tx, if_neg (fun e => hki (e.1.trans h0.symm))]
      exact (h k (by omega)).2 h0 hm

/-- whatever ranges the 2D plots choose first, in the finished figure every place that shows a parameter has the range of its 1D plot -/
theorem made_linked (m : Mode) (n : Nat) (g : Port → R) (lims : Nat → R) (st : St R) : Linked m n lims (made m n g lims st) := by
  have hd : ∀ k, k < n → Xs m lims ((List.range n).foldl (diagonalStep m lims) st) k := by
    intro k hk
    rw [List.range_eq_range']
    exact diagonal_fold n 0 st (fun k hk => absurd hk (by omega)) k (by omega)
  have hb : Begun m n lims 0 (twinStep m lims ((List.range n).foldl (diagonalStep m lims) st)) := by
    refine ⟨fun k hk => ?_, fun h => absurd h (by omega), ?_⟩
    · unfold twinStep
      split_ifs
      · refine ⟨fun r => ?_, fun h0 hm => ?_⟩
        · rw [raw_eq]; simpa [shares] using (hd k hk).1 r
        · rw [raw_eq]; simpa [shares] using (hd k hk).2 h0 hm
      · exact hd k hk
    · cases m with
      | lower => trivial
      | left =>
        unfold twinStep
        rw [if_pos rfl]
        refine ⟨fun c hc => ?_, ?_⟩
        · rw [raw_eq]; simp [shares, hc]
        · rw [raw_eq]; simp [shares]
      | right => exact fun c hc hcn h => absurd h (by omega)
  have hf := begun_fold g n 0 _ (by omega) hb
  rw [← List.range_eq_range', Nat.zero_add] at hf
  change Begun m n lims n (made m n g lims st) at hf
  obtain ⟨hx, hy, h0⟩ := hf
  intro q k hq hk
  obtain ⟨a, d⟩ := q
  cases a with
  | twin =>
    obtain rfl : 0 = k := by simpa [par] using hk
    have hm : m = .left ∧ 0 < n := by simpa [exists'] using hq
    obtain ⟨rfl, hn⟩ := hm
    cases d with
    | x => exact (hx 0 hn).2 rfl rfl
    | y => exact h0.2
  | cell c r =>
    have hcn : c < n ∧ r < n := by
      simp only [exists', Bool.and_eq_true, decide_eq_true_eq] at hq
      exact hq.1
    cases d with
    | x =>
      obtain rfl : c = k := by simpa [par] using hk
      exact (hx c hcn.1).1 r
    | y =>
      have hh : c ≠ r ∧ r = k := by
        by_cases h : c = r
        · simp [par, h] at hk
        · exact ⟨h, by simpa [par, h] using hk⟩
      obtain ⟨hne, rfl⟩ := hh
      by_cases hr : r = 0
      · subst hr
        cases m with
        | lower =>
          simp [exists'] at hq
          omega
        | left => exact h0.1 c hne
        | right => exact h0 c (by omega) hcn.1 (by omega)
      · exact hy (by omega) r (by omega) hcn.2 c hne

/-- the figure made, then changed on any of its subplots (without `upper_roots`) -/
theorem made_then_changed (n : Nat) (g : Port → R) (lims : Nat → R) (st : St R) (ops : List (Port × R))
    (hops : ∀ o ∈ ops, exists' .lower n o.1.1 = true ∧ (par o.1).isSome) :
    ∃ st', setMany .lower n 3 (made .lower n g lims st) ops = .ok st' ∧
      Linked .lower n (fun k => ((ops.reverse.find? (fun o => par o.1 == some k)).map (·.2)).getD (lims k)) st' :=
  lower_linked ops (made_linked .lower n g lims st) hops

example : (let st := made .left 3 (fun _ => 99) (fun k => k + 1) (fun _ => 0)
    ([st (.cell 0 0, .x), st (.cell 0 2, .x), st (.cell 1 0, .x), st (.cell 2 2, .x)], [st (.cell 0 1, .y), st (.cell 2 1, .y), st (.cell 2 0, .y), st (.twin, .y)])) =
    ([1, 1, 2, 3], [2, 2, 1, 1]) := by decide

end Verif.PlotLinks
