import Verif.Props.RafteryLoop
import Mathlib.Analysis.Complex.ExponentialBounds

/-!
# The Raftery and Lewis test on particular chains
-/

namespace Verif.Raftery
open Verif.Py Verif.Py.Np Verif.Thin

/-! ### chains with two values -/

/-- values below the limit where `b` is one, at the limit where it is zero -/
def values (b : List Nat) : List ℝ := b.map fun v => if v = 0 then 1 else 0

/-- a chain with one parameter, weights one, and two values -/
def twoValued (b : List Nat) : Chain := ⟨(List.replicate b.length 1).map (Nat.cast : Nat → ℝ), [values b]⟩

theorem binary_values (b : List Nat) (hb : ∀ v ∈ b, v < 2) : binary 1 (values b) = b := by
  unfold binary values
  rw [List.map_map]
  conv_rhs => rw [← List.map_id b]
  apply List.map_congr_left
  intro v hv
  have := hb v hv
  rcases (by omega : v = 0 ∨ v = 1) with rfl | rfl <;> norm_num

theorem twoValued_natural (b : List Nat) (hb : b ≠ []) : Natural (twoValued b) (List.replicate b.length 1) where
  weights := rfl
  some := ⟨1, by simp [List.length_eq_zero_iff, hb], by omega⟩
  cols := by intro x hx; simp [twoValued] at hx; simp [hx, values]

theorem everyNth_one (l : List Nat) : everyNth 1 l = l := by
  unfold everyNth
  apply List.ext_getElem?
  intro n
  have h : ∀ k, k ≤ l.length → ((List.range k).filterMap fun j => l[(j + 1) * 1 - 1]?) = l.take k := by
    intro k hk
    induction k with
    | zero => simp
    | succ k ih =>
      rw [List.range_succ, List.filterMap_append, ih (by omega)]
      have hk' : k < l.length := by omega
      simp [hk']
  rw [Nat.div_one, h _ (le_refl _), List.take_length]

theorem expand_ones (n : Nat) : expand (List.replicate n 1) = List.range n := by
  have : ∀ n i, expandFrom i (List.replicate n 1) = List.range' i n := by
    intro n
    induction n with
    | zero => intro i; rfl
    | succ n ih => intro i; rw [List.replicate_succ, expandFrom, ih, List.range'_succ]; rfl
  rw [expand, this, List.range_eq_range']

/-- without thinning a chain of weights one is left as it is -/
theorem thinned_one (n : Nat) (x : List ℝ) (hn : 0 < n) (hx : x.length = n) :
    thinned ((List.replicate n 1).map (Nat.cast : Nat → ℝ)) x 1 = .ok x := by
  obtain ⟨k, rfl⟩ : ∃ k, n = k + 1 := ⟨n - 1, by omega⟩
  have h := thin_sparse (K := ℝ) 1 (List.replicate k 1) 1 (by omega) (by intro w hw; simp at hw; omega)
  rw [← List.replicate_succ, if_neg (by omega), List.nil_append, everyNth_one, expand_ones] at h
  unfold thinned
  rw [h]
  have ha : ∀ ix : List Nat, Samples.allSome (ix.map some) = .ok ix := by
    intro ix
    unfold Samples.allSome
    induction ix with
    | nil => rfl
    | cons j ix ih => rw [List.map_cons, List.mapM_cons, ih]; rfl
  simp only [bind, Except.bind, ha]
  rw [Confidence.gather_ok x 0 _ (by intro i hi; simpa [hx] using hi), ← hx, Confidence.map_getD_range]

theorem weightOf_ones (P : ℝ → Bool) : ∀ (b : List Nat), Confidence.weightOf ((values b).zip ((List.replicate b.length 1).map (Nat.cast : Nat → ℝ))) P
    = ((values b).countP P : ℝ) := by
  intro b
  induction b with
  | nil => simp [values, Confidence.weightOf]
  | cons v b ih =>
    have e1 : values (v :: b) = (if v = 0 then 1 else 0) :: values b := rfl
    rw [e1, List.length_cons, List.replicate_succ, List.map_cons, List.zip_cons_cons, Confidence.weightOf_cons, ih, List.countP_cons]
    push_cast
    split <;> simp [add_comm]

theorem values_count (b : List Nat) : (values b).countP (fun v => v ≤ 0) = b.countP (fun v => v ≠ 0) := by
  unfold values
  rw [List.countP_map]
  congr 1
  funext v
  by_cases h : v = 0 <;> simp [h]

/-- if the values below the limit are fewer than the fraction, the quantile is the limit -/
theorem quantile_one (argsort : List ℝ → List Nat) (hA : Confidence.IsArgsort argsort) (selfW : List ℝ) (b : List Nat) (p q : ℝ) (upper : Bool)
    (hp0 : 0 ≤ p) (hp1 : p ≤ 1) (hq : q = if upper then 1 - p else p) (hc : (b.countP (fun v => v ≠ 0) : ℝ) < q * b.length) (wopt : Option (List ℝ))
    (hw : wopt.getD selfW = (List.replicate b.length 1).map (Nat.cast : Nat → ℝ)) :
    Confidence.confidence argsort selfW (values b) p upper 0 none wopt = .ok 1 := by
  have hb : b ≠ [] := by
    rintro rfl
    simp at hc
  obtain ⟨x, hx, hQ⟩ := Confidence.confidence_is_quantile argsort hA selfW (values b) 0 none wopt (by rw [hw]; simp [values])
    (by simp [slice, values, hb]) (by rw [hw]; intro w hw; simp at hw; rw [hw.2]; norm_num) p upper hp0 hp1
  rw [hw, ← hq] at hQ
  rw [hx]
  congr 1
  have hin : Confidence.inRange (values b) ((List.replicate b.length 1).map (Nat.cast : Nat → ℝ)) 0 none
      = (values b).zip ((List.replicate b.length 1).map (Nat.cast : Nat → ℝ)) := by
    simp [Confidence.inRange, slice]
  rw [hin] at hQ
  obtain ⟨h1, h2, h3⟩ := hQ
  have hsum : (((values b).zip ((List.replicate b.length 1).map (Nat.cast : Nat → ℝ))).map (·.2)).sum = (b.length : ℝ) := by
    rw [← List.unzip_snd, List.unzip_zip (by simp [values])]
    simp
  rw [hsum, weightOf_ones] at h2
  have hmem : x ∈ values b := by
    rw [← List.unzip_fst, List.unzip_zip (by simp [values])] at h1
    exact h1
  obtain ⟨v, _, hv⟩ := List.mem_map.mp hmem
  by_cases h0 : v = 0
  · rw [if_pos h0] at hv; exact hv.symm
  · rw [if_neg h0] at hv
    rw [← hv, values_count] at h2
    linarith

/-! ### chains for which nothing can be said -/

/-- what `burn` does if the next value does not depend on the present one -/
theorem burn_memoryless (s : St) (j e : Nat) (t : Nat → Nat → Nat → Nat) (hs : s.tran = some t) (ht : alpha t + beta t = 1 ∨ alpha t + beta t = 2) :
    burn s j e = .error (.other, s) ∨ burn s j e = .error (.loop, { s with fac := 0 }) := by
  unfold burn
  rw [hs]
  simp only
  split
  · exact Or.inr rfl
  · left
    split
    · rfl
    · rcases ht with ht | ht
      · rw [if_pos (by rw [ht]; norm_num)]
      · rw [if_neg (by rw [ht]; norm_num), if_pos (by rw [ht]; norm_num)]

/-- a chain of weights one that passes as Markov, with `alpha + beta` one or two, is reported as failed -/
theorem memoryless (argsort : List ℝ → List Nat) (hA : Confidence.IsArgsort argsort) (all : Chain) (s : St) (b : List Nat) (hb : ∀ v ∈ b, v < 2)
    (h3 : 3 < b.length) (hc : 2 * b.countP (fun v => v ≠ 0) < b.length) (hcond : Conditional (tran3 b))
    (ht : alpha (tran3 b) + beta (tran3 b) = 1 ∨ alpha (tran3 b) + beta (tran3 b) = 2) (n : Nat) (hn : 0 < n) :
    ∃ s', chain argsort all 0 n s (twoValued b) = .ok (some (none, s')) := by
  have hne : b ≠ [] := by rintro rfl; simp at h3
  have hq : ∀ p : ℝ, p = 1 / 2 → Confidence.confidence argsort all.weights (values b) p false 0 none (some (twoValued b).weights) = .ok 1 := by
    intro p hp
    apply quantile_one argsort hA all.weights b p p false (by rw [hp]; norm_num) (by rw [hp]; norm_num) (by simp) _ _ rfl
    have : (2 * (b.countP (fun v => v ≠ 0) : ℝ)) < b.length := by exact_mod_cast hc
    rw [hp]; linarith
  have hstart : startFac (twoValued b).weights = .ok 1 := by
    obtain ⟨f, h1, h2, h3⟩ := startFac_nat (List.replicate b.length 1) (by simp [hne]) (twoValued_natural b hne).some
    have hf : f = 1 := by simp at h3; exact h3.2
    rw [hf] at h1
    exact h1
  have hthin : thinned (twoValued b).weights (values b) 1 = .ok (values b) :=
    thinned_one b.length (values b) (by omega) (by simp [values])
  have hlen : (values b).length = b.length := by simp [values]
  have hloop : ∀ (k : Nat) (s : St), s.fac = 1 → markovLoop (twoValued b).weights (values b) 1 (k + 1) s
      = .ok { s with rows := b.length, tran := some (tran3 b) } := by
    intro k s hs
    unfold markovLoop
    rw [hs, hthin]
    simp only [hlen, binary_values b hb]
    rw [if_neg (by omega), if_neg (by omega), if_pos]
    rw [(g2Markov_zero _).mpr hcond]
    have : 0 < Real.log ((b.length : ℝ) - 2) := by
      apply Real.log_pos
      have : (4 : ℝ) ≤ b.length := by exact_mod_cast h3
      linarith
    linarith
  have hbody : ∀ s : St, s.fac = 1 → body argsort all (twoValued b) 0 n s = .error (.other, { s with rows := b.length, tran := some (tran3 b) }) ∨
      body argsort all (twoValued b) 0 n s = .error (.loop, { s with rows := b.length, tran := some (tran3 b), fac := 0 }) := by
    intro s hs
    obtain ⟨k, rfl⟩ : ∃ k, n = k + 1 := ⟨n - 1, by omega⟩
    unfold body
    rw [List.range_succ_eq_map, List.foldlM_cons]
    unfold param
    have hcol : col (twoValued b) 0 s = .ok (values b) := rfl
    rw [hcol]
    simp only [bind, Except.bind]
    rw [hq _ (by norm_num), hq _ (by norm_num)]
    simp only [lift]
    rw [show rounds (twoValued b).weights = (rounds (twoValued b).weights - 1) + 1 by unfold rounds; omega, hloop _ _ hs]
    simp only
    rcases burn_memoryless { s with rows := b.length, tran := some (tran3 b) } 0 0 (tran3 b) rfl ht with h | h <;> rw [h]
    · exact Or.inl rfl
    · exact Or.inr rfl
  unfold chain
  rw [hstart]
  simp only [bind, Except.bind]
  rcases hbody { s with fac := 1, nburn := 0 } rfl with h | h <;> rw [h]
  · exact ⟨_, rfl⟩
  · exact ⟨_, rfl⟩

theorem index3_cons (a b c : Nat) (l : List Nat) : index3 (a :: b :: c :: l) = (a * 4 + b * 2 + c) :: index3 (b :: c :: l) := by
  simp [index3]

theorem tran3_cons (a b c : Nat) (l : List Nat) (i j k : Nat) :
    tran3 (a :: b :: c :: l) i j k = tran3 (b :: c :: l) i j k + if a * 4 + b * 2 + c = i * 4 + j * 2 + k then 1 else 0 := by
  unfold tran3
  rw [index3_cons, List.count_cons]
  simp

/-- eight triples, each once, again and again -/
def ideal : Nat → List Nat
  | 0 => [0, 0]
  | n + 1 => 0 :: 0 :: 0 :: 1 :: 0 :: 1 :: 1 :: 1 :: ideal n

theorem ideal_begin (n : Nat) : ∃ r, ideal n = 0 :: 0 :: r := by cases n <;> exact ⟨_, rfl⟩

theorem ideal_tran (n i j k : Nat) (hi : i < 2) (hj : j < 2) (hk : k < 2) : tran3 (ideal n) i j k = n := by
  induction n with
  | zero =>
    interval_cases i <;> interval_cases j <;> interval_cases k <;> decide
  | succ n ih =>
    obtain ⟨r, hr⟩ := ideal_begin n
    rw [ideal, hr]
    rw [hr] at ih
    simp only [tran3_cons, ih]
    interval_cases i <;> interval_cases j <;> interval_cases k <;> simp

theorem ideal_length (n : Nat) : (ideal n).length = 8 * n + 2 := by
  induction n with
  | zero => rfl
  | succ n ih => simp [ideal, ih]; omega

theorem ideal_bits (n : Nat) : ∀ v ∈ ideal n, v < 2 := by
  induction n with
  | zero => decide
  | succ n ih =>
    intro v hv
    simp only [ideal, List.mem_cons] at hv
    rcases hv with h | h | h | h | h | h | h | h | h
    all_goals first | omega | exact ih v h

theorem ideal_count (n : Nat) : (ideal n).countP (fun v => v ≠ 0) = 4 * n := by
  induction n with
  | zero => rfl
  | succ n ih => simp only [ideal, List.countP_cons, ih]; simp; omega

/-- **C136** A chain that looks perfectly independent is reported as failed or too short, however long it is: the logarithm of zero is taken, and
the exception is caught and taken for lack of samples. Here every run of three values occurs equally often. -/
theorem ideal_chain_fails (argsort : List ℝ → List Nat) (hA : Confidence.IsArgsort argsort) (all : Chain) (s : St) (n : Nat) (hn : 0 < n) :
    (∀ i < 2, ∀ j < 2, ∀ k < 2, runs3 (ideal n) i j k = n) ∧ ∃ s', chain argsort all 0 1 s (twoValued (ideal n)) = .ok (some (none, s')) := by
  have ht := ideal_tran n
  refine ⟨fun i hi j hj k hk => by rw [← tran3_spec _ (ideal_bits n) i j k hi hj hk, ht i j k hi hj hk], ?_⟩
  apply memoryless argsort hA all s _ (ideal_bits n) (by rw [ideal_length]; omega) (by rw [ideal_count, ideal_length]; omega) _ _ 1 (by omega)
  · intro i hi j hj k hk
    simp only [ht _ _ _ hi hj hk, ht _ _ _ hi hj (by omega : 0 < 2), ht _ _ _ hi hj (by omega : 1 < 2), ht _ _ _ (by omega : 0 < 2) hj hk,
      ht _ _ _ (by omega : 1 < 2) hj hk, ht _ _ _ (by omega : 0 < 2) hj (by omega : 0 < 2), ht _ _ _ (by omega : 0 < 2) hj (by omega : 1 < 2),
      ht _ _ _ (by omega : 1 < 2) hj (by omega : 0 < 2), ht _ _ _ (by omega : 1 < 2) hj (by omega : 1 < 2)]
    ring
  · left
    have hp : (0 : ℝ) < n := by exact_mod_cast hn
    unfold alpha beta trans
    simp only [ht _ _ _ (by omega : 0 < 2) (by omega : 0 < 2) (by omega : 0 < 2), ht _ _ _ (by omega : 0 < 2) (by omega : 0 < 2) (by omega : 1 < 2),
      ht _ _ _ (by omega : 1 < 2) (by omega : 0 < 2) (by omega : 0 < 2), ht _ _ _ (by omega : 1 < 2) (by omega : 0 < 2) (by omega : 1 < 2),
      ht _ _ _ (by omega : 0 < 2) (by omega : 1 < 2) (by omega : 0 < 2), ht _ _ _ (by omega : 0 < 2) (by omega : 1 < 2) (by omega : 1 < 2),
      ht _ _ _ (by omega : 1 < 2) (by omega : 1 < 2) (by omega : 0 < 2), ht _ _ _ (by omega : 1 < 2) (by omega : 1 < 2) (by omega : 1 < 2)]
    push_cast
    field_simp

/-- **C136** A chain that jumps to the other side in every step is also reported as failed or too short: the logarithm of one is divided by. -/
theorem alternating_fails (argsort : List ℝ → List Nat) (hA : Confidence.IsArgsort argsort) (all : Chain) (s : St) :
    ∃ s', chain argsort all 0 1 s (twoValued [0, 1, 0, 1, 0, 1, 0, 1, 0]) = .ok (some (none, s')) := by
  apply memoryless argsort hA all s _ (by decide) (by decide) (by decide) (by unfold Conditional; decide) _ 1 (by omega)
  right
  have h1 : trans (tran3 [0, 1, 0, 1, 0, 1, 0, 1, 0]) 0 1 = 3 := by decide
  have h2 : trans (tran3 [0, 1, 0, 1, 0, 1, 0, 1, 0]) 0 0 = 0 := by decide
  have h3 : trans (tran3 [0, 1, 0, 1, 0, 1, 0, 1, 0]) 1 0 = 4 := by decide
  have h4 : trans (tran3 [0, 1, 0, 1, 0, 1, 0, 1, 0]) 1 1 = 0 := by decide
  unfold alpha beta
  rw [h1, h2, h3, h4]
  norm_num

/-- **C135** The test that weights are next to whole numbers is the stricter the larger the largest weight: rounding all of a chain of weights down, even if each is as
large as the largest, leaves out less than a ten thousandth of the number of rows for each unit of the largest. -/
theorem integerWeights_spec (w : List ℝ) (m : ℝ) (hm : 0 < m) (h : integerWeights w m) (x : ℝ) (hx : x ∈ w) :
    |m * x - m * (trunc x : ℝ)| < 1 / 10000 := by
  have := h x hx
  rw [lt_div_iff₀ hm] at this
  rw [← mul_sub, abs_mul, abs_of_pos hm]
  linarith

/-- **C136** Weights a little above whole numbers pass the test that they are next to whole numbers, but then thinning refuses them, and the chain is
reported as failed or too short, however long it is. -/
theorem near_integer_fails (argsort : List ℝ → List Nat) (all c : Chain) (conf : ℝ) (n : Nat) (s : St) (k : Nat) (hk : 2 ≤ k)
    (hw : c.weights = List.replicate k (1 + 9 / 100000)) :
    integerWeights c.weights (1 + 9 / 100000) ∧ ∃ s', chain argsort all conf n s c = .ok (some (none, s')) := by
  have htr : trunc (1 + 9 / 100000 : ℝ) = 1 := by
    unfold trunc
    rw [if_pos (by norm_num), Int.floor_eq_iff]
    norm_num
  constructor
  · intro x hx
    rw [hw] at hx
    rw [List.eq_of_mem_replicate hx, htr]
    norm_num [abs_lt]
  have hth : ∀ (f : Nat), thinIndices (f : ℝ) c.weights = .error .weightedSampleError := by
    intro f
    apply thin_refuses_noninteger
    · rw [hw]; intro w hw; rw [List.eq_of_mem_replicate hw]; norm_num
    · have hfr : Int.fract (1 + 9 / 100000 : ℝ) = 9 / 100000 := by
        rw [Int.fract_eq_iff]
        exact ⟨by norm_num, by norm_num, 1, by norm_num⟩
      rw [hw, List.map_replicate, hfr, List.sum_replicate]
      have : (2 : ℝ) ≤ k := by exact_mod_cast hk
      rw [nsmul_eq_mul]
      nlinarith
  have hthin : ∀ x f, thinned c.weights x f = .error .weightedSampleError := by
    intro x f
    unfold thinned
    rw [hth]; rfl
  have hm : ∀ x u k s, markovLoop c.weights x u (k + 1) s = .error (.other, s) := by
    intro x u k s
    unfold markovLoop
    rw [hthin]
  have hi : ∀ x u k s, indepLoop c.weights x u (k + 1) s = .error (.other, s) := by
    intro x u k s
    unfold indepLoop
    rw [hthin]
  have hr : rounds c.weights = (rounds c.weights - 1) + 1 := by unfold rounds; omega
  have hstart : ∃ f, startFac c.weights = .ok f := by
    rw [hw]
    obtain ⟨k', rfl⟩ : ∃ k', k = k' + 1 := ⟨k - 1, by omega⟩
    rw [List.replicate_succ]
    exact ⟨_, rfl⟩
  obtain ⟨f, hf⟩ := hstart
  have hbody : ∀ s : St, ∃ s', body argsort all c conf n s = .error (.other, s') := by
    intro s
    have hpar : ∀ s j, ∃ s', param argsort all.weights c (1 - (1 - conf) / 2, (1 - conf) / 2) s j = .error (.other, s') := by
      intro s j
      unfold param
      cases hc : c.cols[j]? with
      | none => simp only [col, hc, bind, Except.bind]; exact ⟨_, rfl⟩
      | some x =>
        simp only [col, hc, bind, Except.bind, lift]
        cases Confidence.confidence argsort all.weights x (1 - (1 - conf) / 2) false 0 none (some c.weights) with
        | error e => exact ⟨_, rfl⟩
        | ok u0 =>
          simp only
          cases Confidence.confidence argsort all.weights x ((1 - conf) / 2) false 0 none (some c.weights) with
          | error e => exact ⟨_, rfl⟩
          | ok u1 =>
            simp only
            rw [hr, hm]
            exact ⟨_, rfl⟩
    unfold body
    cases n with
    | succ n =>
      rw [List.range_succ_eq_map, List.foldlM_cons]
      obtain ⟨s', h⟩ := hpar s 0
      rw [h]
      exact ⟨_, rfl⟩
    | zero =>
      simp only [List.range_zero, List.foldlM_nil, pure, Except.pure, bind, Except.bind]
      cases h1 : col all (max s.hardest 0).toNat { s with hardest := max s.hardest 0 } with
      | error e => obtain ⟨e, s'⟩ := e; rw [col_err h1]; exact ⟨_, rfl⟩
      | ok y =>
        simp only
        cases h2 : lift (Confidence.confidence argsort all.weights y ((1 - conf) / 2) (s.hardestend == 0) 0 none none) { s with hardest := max s.hardest 0 } with
        | error e => obtain ⟨e, s'⟩ := e; rw [lift_err h2]; exact ⟨_, rfl⟩
        | ok u =>
          simp only
          cases h3 : col c (max s.hardest 0).toNat { s with hardest := max s.hardest 0 } with
          | error e => obtain ⟨e, s'⟩ := e; rw [col_err h3]; exact ⟨_, rfl⟩
          | ok x =>
            simp only
            rw [hr, hi]
            exact ⟨_, rfl⟩
  obtain ⟨s', hs'⟩ := hbody { s with fac := f, nburn := 0 }
  unfold chain
  rw [hf]
  simp only [bind, Except.bind]
  rw [hs']
  exact ⟨_, rfl⟩

/-! ### a chain for which all is well -/

/-- one value below all others, in the middle of 42 -/
def oneLow : List Nat := List.replicate 20 0 ++ 1 :: List.replicate 21 0

theorem oneLow_counts : ∀ i < 2, ∀ j < 2, ∀ k < 2, tran3 oneLow i j k =
    if (i, j, k) = (0, 0, 0) then 37 else if (i, j, k) = (0, 0, 1) ∨ (i, j, k) = (0, 1, 0) ∨ (i, j, k) = (1, 0, 0) then 1 else 0 := by decide

theorem oneLow_counts2 : ∀ i < 2, ∀ j < 2, tran2 oneLow i j =
    if (i, j) = (0, 0) then 39 else if (i, j) = (0, 1) ∨ (i, j) = (1, 0) then 1 else 0 := by decide

theorem oneLow_markov : g2Markov (tran3 oneLow) - Real.log ((oneLow.length : ℝ) - 2) * 2 < 0 := by
  have h := oneLow_counts
  have e : ∀ i < 2, ∀ j < 2, ∀ k < 2, tran3 oneLow i j k = _ := h
  have h1 : Real.log (37 / (38 * 38 / 39) : ℝ) ≤ 37 / (38 * 38 / 39) - 1 := Real.log_le_sub_one_of_pos (by norm_num)
  have h2 : Real.log (1 / (38 / 39) : ℝ) ≤ 1 / (38 / 39) - 1 := Real.log_le_sub_one_of_pos (by norm_num)
  have h40 : 1 / 2 < Real.log (40 : ℝ) := by
    rw [Real.lt_log_iff_exp_lt (by norm_num)]
    have := Real.exp_one_lt_d9
    have h3 : Real.exp (1 / 2) ≤ Real.exp 1 := Real.exp_le_exp.mpr (by norm_num)
    linarith
  have hlen : (oneLow.length : ℝ) - 2 = 40 := by
    have : oneLow.length = 42 := by decide
    rw [this]; norm_num
  rw [hlen]
  simp only [g2Markov, Finset.sum_range_succ, Finset.sum_range_zero, zero_add, term3]
  rw [e 0 (by omega) 0 (by omega) 0 (by omega), e 0 (by omega) 0 (by omega) 1 (by omega), e 0 (by omega) 1 (by omega) 0 (by omega),
    e 0 (by omega) 1 (by omega) 1 (by omega), e 1 (by omega) 0 (by omega) 0 (by omega), e 1 (by omega) 0 (by omega) 1 (by omega),
    e 1 (by omega) 1 (by omega) 0 (by omega), e 1 (by omega) 1 (by omega) 1 (by omega)]
  norm_num at h1 h2 ⊢
  linarith

theorem oneLow_indep : g2Indep (tran2 oneLow) oneLow.length - Real.log ((oneLow.length : ℝ) - 1) < 0 := by
  have e := oneLow_counts2
  have h1 : Real.log (39 / (40 * 40 / 41) : ℝ) ≤ 39 / (40 * 40 / 41) - 1 := Real.log_le_sub_one_of_pos (by norm_num)
  have h2 : Real.log (1 / (40 / 41) : ℝ) ≤ 1 / (40 / 41) - 1 := Real.log_le_sub_one_of_pos (by norm_num)
  have h40 : 1 / 2 < Real.log (41 : ℝ) := by
    rw [Real.lt_log_iff_exp_lt (by norm_num)]
    have := Real.exp_one_lt_d9
    have h3 : Real.exp (1 / 2) ≤ Real.exp 1 := Real.exp_le_exp.mpr (by norm_num)
    linarith
  have hlen : oneLow.length = 42 := by decide
  rw [hlen]
  simp only [g2Indep, Finset.sum_range_succ, Finset.sum_range_zero, zero_add, fitted2]
  rw [e 0 (by omega) 0 (by omega), e 0 (by omega) 1 (by omega), e 1 (by omega) 0 (by omega), e 1 (by omega) 1 (by omega)]
  norm_num at h1 h2 ⊢
  linarith

/-- **C135** A chain with default settings for which the numbers are found. -/
theorem oneLow_chain (argsort : List ℝ → List Nat) (hA : Confidence.IsArgsort argsort) :
    ∃ s', chain argsort (twoValued oneLow) (95 / 100) 1 start (twoValued oneLow) = .ok (some (some (1, 1, burnSteps (1 / 39) 1 (1 / 1000)), s')) := by
  have hb : ∀ v ∈ oneLow, v < 2 := by decide
  have hlen : oneLow.length = 42 := by decide
  have hcount : oneLow.countP (fun v => v ≠ 0) = 1 := by decide
  have hne : oneLow ≠ [] := by decide
  have hq : ∀ (p q : ℝ) (up : Bool) wopt, 0 ≤ p → p ≤ 1 → (q = if up then 1 - p else p) → 1 < q * 42 →
      wopt.getD (twoValued oneLow).weights = (twoValued oneLow).weights →
      Confidence.confidence argsort (twoValued oneLow).weights (values oneLow) p up 0 none wopt = .ok 1 := by
    intro p q up wopt h0 h1 h2 h3 h4
    exact quantile_one argsort hA _ oneLow p q up h0 h1 h2 (by rw [hcount, hlen]; simpa using h3) wopt h4
  have hstart : startFac (twoValued oneLow).weights = .ok 1 := by
    obtain ⟨f, h1, h2, h3⟩ := startFac_nat (List.replicate oneLow.length 1) (by simp [hne]) (twoValued_natural oneLow hne).some
    have hf : f = 1 := by simp at h3; exact h3.2
    rw [hf] at h1
    exact h1
  have hthin : thinned (twoValued oneLow).weights (values oneLow) 1 = .ok (values oneLow) :=
    thinned_one oneLow.length (values oneLow) (by omega) (by simp [values])
  have hvl : (values oneLow).length = oneLow.length := by simp [values]
  have hloop : ∀ (k : Nat) (s : St), s.fac = 1 → markovLoop (twoValued oneLow).weights (values oneLow) 1 (k + 1) s
      = .ok { s with rows := 42, tran := some (tran3 oneLow) } := by
    intro k s hs
    unfold markovLoop
    rw [hs, hthin]
    simp only [hvl, binary_values oneLow hb]
    rw [if_neg (by omega), if_neg (by omega), if_pos oneLow_markov, hlen]
  have hindep : ∀ (k : Nat) (s : St), s.fac = 1 → indepLoop (twoValued oneLow).weights (values oneLow) 1 (k + 1) s = .ok { s with rows := 42 } := by
    intro k s hs
    unfold indepLoop
    rw [hs, hthin]
    simp only [hvl, binary_values oneLow hb]
    rw [if_neg (by omega), if_neg (no_problem _ _ (by omega)), if_pos oneLow_indep, hlen]
  have hr : rounds (twoValued oneLow).weights = (rounds (twoValued oneLow).weights - 1) + 1 := by unfold rounds; omega
  have ha : alpha (tran3 oneLow) = 1 / 39 := by
    have h1 : trans (tran3 oneLow) 0 1 = 1 := by decide
    have h2 : trans (tran3 oneLow) 0 0 = 38 := by decide
    unfold alpha; rw [h1, h2]; norm_num
  have hbt : beta (tran3 oneLow) = 1 := by
    have h1 : trans (tran3 oneLow) 1 0 = 1 := by decide
    have h2 : trans (tran3 oneLow) 1 1 = 0 := by decide
    unfold beta; rw [h1, h2]; norm_num
  have hz : ¬ (trans (tran3 oneLow) 0 1 = 0 ∨ trans (tran3 oneLow) 1 0 = 0) := by decide
  have hbp := burnSteps_pos (1 / 39) 1 (1 / 1000) (by norm_num) (by norm_num) (by norm_num) (by norm_num) (by norm_num) (by norm_num)
  have hburn : ∀ (s : St) (j e : Nat), s.fac = 1 → s.tran = some (tran3 oneLow) → burn s j e =
      if burnSteps (1 / 39) 1 (1 / 1000) > s.nburn then .ok { s with nburn := burnSteps (1 / 39) 1 (1 / 1000), hardest := j, hardestend := e } else .ok s := by
    intro s j e hf ht
    unfold burn
    rw [ht]
    simp only
    have hm : (max (1 / 39) 1 : ℝ) = 1 := by norm_num
    have habs : |(1 : ℝ) - (1 / 39 + 1)| = 1 / 39 := by norm_num [abs_of_neg]
    rw [if_neg hz, ha, hbt, hm, habs, if_neg (by norm_num), if_neg (by norm_num), if_neg (by
      have := Real.log_neg (x := 1 / 39) (by norm_num) (by norm_num)
      exact this.ne), hf]
    simp
  have hcol : ∀ s, col (twoValued oneLow) 0 s = .ok (values oneLow) := fun s => rfl
  unfold chain
  rw [hstart]
  simp only [bind, Except.bind]
  have hbody : body argsort (twoValued oneLow) (twoValued oneLow) (95 / 100) 1 { start with fac := 1, nburn := 0 } =
      .ok (⟨1, burnSteps (1 / 39) 1 (1 / 1000), 0, 0, some (tran3 oneLow), 42⟩, 1) := by
    unfold body
    rw [show List.range 1 = [0] from rfl]
    simp only [List.foldlM_cons, List.foldlM_nil]
    unfold param
    rw [hcol]
    simp only [bind, Except.bind]
    rw [hq _ _ false (some (twoValued oneLow).weights) (by norm_num) (by norm_num) rfl (by norm_num) rfl,
      hq _ _ false (some (twoValued oneLow).weights) (by norm_num) (by norm_num) rfl (by norm_num) rfl]
    simp only [lift]
    rw [hr, hloop _ _ rfl]
    simp only
    rw [hburn _ _ _ rfl rfl, if_pos (by simp only; omega)]
    simp only
    rw [hloop _ _ rfl]
    simp only
    rw [hburn _ _ _ rfl rfl, if_neg (by simp)]
    simp only [pure, Except.pure, Nat.cast_zero, max_self, Int.toNat_zero]
    rw [hcol]
    simp only
    rw [show ((0 : Nat) == 0) = true from rfl, hq ((1 - 95 / 100) / 2) _ true none (by norm_num) (by norm_num) rfl (by norm_num) rfl]
    simp only
    rw [hindep _ _ rfl]
  rw [hbody]
  exact ⟨_, rfl⟩

example : ∃ nb, (chain Confidence.argsortIns (twoValued oneLow) (95 / 100) 1 start (twoValued oneLow)).toOption.bind (fun o => o.map (·.1))
    = some (some (1, 1, nb)) := by
  obtain ⟨s', h⟩ := oneLow_chain Confidence.argsortIns Confidence.argsortIns_isArgsort
  rw [h]
  exact ⟨_, rfl⟩

end Verif.Raftery
