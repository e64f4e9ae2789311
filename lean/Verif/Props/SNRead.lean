import Verif.Props.SNCov

/-!
# Reading supernova data; defects
-/

namespace Verif.SN
open Verif.Py Matrix Real

set_option linter.unusedSectionVars false

variable {K : Type}

/-! ### columns -/

theorem putVals_spec (num : Str → Option K) (ix : Nat) (ps : List (Str × Str)) (d : Dict Str (List K)) (names : List Str)
    (hnd : (ps.map Prod.fst).Nodup)
    (h : ∀ p ∈ ps, p.1 ≠ c!"name" → (∃ x, num p.2 = some x) ∧ ∃ a, Dict.get? d p.1 = some a ∧ ix < a.length) :
    ∃ d' names', ps.foldl (putVal num ix) (.ok (d, names)) = .ok (d', names') ∧
      names' = names ++ (ps.filter fun p => decide (p.1 = c!"name")).map Prod.snd ∧
      (∀ p ∈ ps, p.1 ≠ c!"name" → ∃ x a, num p.2 = some x ∧ Dict.get? d p.1 = some a ∧ Dict.get? d' p.1 = some (a.set ix x)) ∧
      ∀ c, c ∉ ps.map Prod.fst → Dict.get? d' c = Dict.get? d c := by
  induction ps generalizing d names with
  | nil => exact ⟨d, names, rfl, by simp, by simp, fun _ _ => rfl⟩
  | cons p ps ih =>
    simp only [List.map_cons, List.nodup_cons] at hnd
    rw [List.foldl_cons]
    by_cases hp : p.1 = c!"name"
    · have e : putVal num ix (.ok (d, names)) p = .ok (d, names ++ [p.2]) := by simp [-String.reduceToList, putVal, hp]
      rw [e]
      obtain ⟨d', names', h1, h2, h3, h4⟩ := ih d (names ++ [p.2]) hnd.2 (fun q hq => h q (by simp [hq]))
      refine ⟨d', names', h1, ?_, ?_, ?_⟩
      · rw [h2]
        simp [-String.reduceToList, hp]
      · intro q hq hqn
        rcases List.mem_cons.mp hq with rfl | hq
        · exact absurd hp hqn
        · exact h3 q hq hqn
      · intro c hc
        simp only [List.map_cons, List.mem_cons, not_or] at hc
        exact h4 c hc.2
    · obtain ⟨⟨x, hx⟩, a, ha, hix⟩ := h p (by simp) hp
      have e : putVal num ix (.ok (d, names)) p = .ok (Dict.set d p.1 (a.set ix x), names) := by
        simp [-String.reduceToList, putVal, hp, hx, ha, hix]
      rw [e]
      have hne : ∀ q ∈ ps, q.1 ≠ p.1 := fun q hq he => hnd.1 (he ▸ List.mem_map_of_mem hq)
      obtain ⟨d', names', h1, h2, h3, h4⟩ := ih (Dict.set d p.1 (a.set ix x)) names hnd.2 (by
        intro q hq hqn
        rw [Dict.get?_set_of_ne _ _ (hne q hq)]
        exact h q (by simp [hq]) hqn)
      refine ⟨d', names', h1, ?_, ?_, ?_⟩
      · rw [h2]
        simp [-String.reduceToList, hp]
      · intro q hq hqn
        rcases List.mem_cons.mp hq with rfl | hq
        · exact ⟨x, a, hx, ha, by rw [h4 _ hnd.1, Dict.get?_set_self]⟩
        · obtain ⟨y, b, hy, hb, hb'⟩ := h3 q hq hqn
          rw [Dict.get?_set_of_ne _ _ (hne q hq)] at hb
          exact ⟨y, b, hy, hb, hb'⟩
      · intro c hc
        simp only [List.map_cons, List.mem_cons, not_or] at hc
        rw [h4 c hc.2, Dict.get?_set_of_ne _ _ hc.1]

theorem fresh_spec [Zero K] (len : Nat) (attrs : Dict Str (List K)) (cols : List Str) (c : Str) (hc : c ∈ cols) :
    Dict.get? (fresh len attrs cols) c = some (List.replicate len 0) := by
  unfold fresh
  have key : ∀ (cs : List Str) (d : Dict Str (List K)), (c ∈ cs ∨ Dict.get? d c = some (List.replicate len 0)) →
      Dict.get? (cs.foldl (fun d c => Dict.set d c (List.replicate len 0)) d) c = some (List.replicate len 0) := by
    intro cs
    induction cs with
    | nil => intro d h; simpa using h
    | cons x xs ih =>
      intro d h
      rw [List.foldl_cons]
      apply ih
      by_cases hx : c = x
      · subst hx
        exact Or.inr (Dict.get?_set_self _ _ _)
      · rw [Dict.get?_set_of_ne _ _ hx]
        rcases h with h | h
        · rcases List.mem_cons.mp h with h | h
          · exact absurd h hx
          · exact Or.inl h
        · exact Or.inr h
  exact key _ _ (Or.inl (by simp [hc]))

/-- a line of the data: no comment, not blank, one value for each column, numbers except for the name -/
structure GoodLine (num : Str → Option K) (cols : List Str) (line : Str) : Prop where
  comment : '#' ∉ line
  blank : strip line ≠ []
  len : (splitWs line).length = cols.length
  nums : ∀ p ∈ cols.zip (splitWs line), p.1 ≠ c!"name" → ∃ x, num p.2 = some x

/-- A header followed by data lines only: every column becomes the list of its values, in the order of the lines; names are collected. -/
theorem readData_spec [Zero K] (num : Str → Option K) (hdr : Str) (rows : List Str) (hh : '#' ∈ hdr) (hnd : (header hdr).Nodup)
    (hrows : ∀ r ∈ rows, GoodLine num (header hdr) r) :
    ∃ s, readData num (hdr :: rows) = .ok s ∧ s.ix = rows.length ∧
      s.names = rows.flatMap (fun r => ((header hdr).zip (splitWs r)).filter (fun p => decide (p.1 = c!"name")) |>.map Prod.snd) ∧
      (∀ c ∈ header hdr, c ≠ c!"name" → ∃ a, Dict.get? s.attrs c = some a ∧ a.length = rows.length ∧
        ∀ (k : Nat) (r : Str), rows[k]? = some r → ∀ t, (c, t) ∈ (header hdr).zip (splitWs r) → ∃ x, num t = some x ∧ a[k]? = some x) := by
  have hfst : ∀ r ∈ rows, ((header hdr).zip (splitWs r)).map Prod.fst = header hdr := by
    intro r hr
    rw [List.map_fst_zip (by rw [(hrows r hr).len])]
  -- loop over the rows
  have key : ∀ (todo done : List Str) (s : Rd K), done ++ todo = rows → s.cols = some (header hdr) → s.ix = done.length →
      s.names = done.flatMap (fun r => ((header hdr).zip (splitWs r)).filter (fun p => decide (p.1 = c!"name")) |>.map Prod.snd) →
      (∀ c ∈ header hdr, c ≠ c!"name" → ∃ a, Dict.get? s.attrs c = some a ∧ a.length = rows.length ∧
        ∀ (k : Nat) (r : Str), done[k]? = some r → ∀ t, (c, t) ∈ (header hdr).zip (splitWs r) → ∃ x, num t = some x ∧ a[k]? = some x) →
      ∃ s', todo.foldlM (readLine num rows.length) s = .ok s' ∧ s'.ix = rows.length ∧
        s'.names = rows.flatMap (fun r => ((header hdr).zip (splitWs r)).filter (fun p => decide (p.1 = c!"name")) |>.map Prod.snd) ∧
        (∀ c ∈ header hdr, c ≠ c!"name" → ∃ a, Dict.get? s'.attrs c = some a ∧ a.length = rows.length ∧
          ∀ (k : Nat) (r : Str), rows[k]? = some r → ∀ t, (c, t) ∈ (header hdr).zip (splitWs r) → ∃ x, num t = some x ∧ a[k]? = some x) := by
    intro todo
    induction todo with
    | nil =>
      intro done s hd hc hix hnm hat
      rw [List.append_nil] at hd
      subst hd
      exact ⟨s, rfl, hix, hnm, hat⟩
    | cons r todo ih =>
      intro done s hd hc hix hnm hat
      have hr : r ∈ rows := by rw [← hd]; simp
      have hg := hrows r hr
      have hlt : done.length < rows.length := by rw [← hd]; simp
      obtain ⟨d', names', h1, h2, h3, h4⟩ := putVals_spec num s.ix ((header hdr).zip (splitWs r)) s.attrs s.names
        (by rw [hfst r hr]; exact hnd)
        (by
          intro p hp hpn
          refine ⟨hg.nums p hp hpn, ?_⟩
          obtain ⟨a, ha, hal, -⟩ := hat p.1 (by rw [← hfst r hr]; exact List.mem_map_of_mem hp) hpn
          exact ⟨a, ha, by omega⟩)
      have e : readLine num rows.length s r = .ok { s with attrs := d', names := names', ix := s.ix + 1 } := by
        simp only [readLine, hg.comment, if_false, hg.blank, hc]
        rw [h1]
      rw [List.foldlM_cons, e]
      refine ih (done ++ [r]) _ (by simpa using hd) hc (by simp [hix]) ?_ ?_
      · simp only
        rw [h2, hnm]
        simp
      · intro c hcm hcn
        obtain ⟨a, ha, hal, hav⟩ := hat c hcm hcn
        have hp : ∃ t, (c, t) ∈ (header hdr).zip (splitWs r) := by
          rw [← hfst r hr] at hcm
          obtain ⟨⟨c', t⟩, hp, rfl⟩ := List.mem_map.mp hcm
          exact ⟨t, hp⟩
        obtain ⟨t, ht⟩ := hp
        obtain ⟨x, a', hx, ha', hd'⟩ := h3 (c, t) ht hcn
        simp only at hx ha' hd'
        rw [ha] at ha'
        cases ha'
        refine ⟨a.set s.ix x, hd', by simp [hal], ?_⟩
        intro k q hk t' ht'
        rcases Nat.lt_or_ge k done.length with hlt' | hge
        · rw [List.getElem?_append_left hlt'] at hk
          obtain ⟨y, hy, hy'⟩ := hav k q hk t' ht'
          refine ⟨y, hy, ?_⟩
          rw [List.getElem?_set_ne (by omega)]
          exact hy'
        · rw [List.getElem?_append_right hge] at hk
          have hk0 : k = done.length := by
            by_contra hne
            rw [List.getElem?_eq_none (by simp; omega)] at hk
            cases hk
          subst hk0
          simp only [Nat.sub_self, List.getElem?_cons_zero, Option.some.injEq] at hk
          subst hk
          obtain ⟨x', a'', hx', ha'', hd''⟩ := h3 (c, t') ht' hcn
          simp only at hx' ha'' hd''
          rw [ha] at ha''
          cases ha''
          refine ⟨x', hx', ?_⟩
          rw [hd'] at hd''
          simp only [Option.some.injEq] at hd''
          rw [hd'', hix, List.getElem?_set_self (by omega)]
  have e0 : readLine num rows.length (⟨none, [], [], 0⟩ : Rd K) hdr = .ok ⟨some (header hdr), fresh rows.length [] (header hdr), [], 0⟩ := by
    simp [readLine, hh]
  unfold readData
  rw [List.foldlM_cons, show (hdr :: rows).length - 1 = rows.length from rfl, e0]
  exact key rows [] _ rfl rfl rfl rfl (by
    intro c hc hcn
    exact ⟨_, fresh_spec _ _ _ c hc, by simp, by simp⟩)

/-- digits as numbers, for examples -/
def digit : Str → Option ℚ
  | ['0'] => some 0
  | ['1'] => some 1
  | ['2'] => some 2
  | ['3'] => some 3
  | _ => none

/-- what the reader stores, without the zeros of unused attributes -/
def shown (c : Str) : Except Err (Rd ℚ) → Option (Nat × List Str × Option (List ℚ))
  | .error _ => none
  | .ok s => some (s.ix, s.names, Dict.get? s.attrs c)

/-- Example: two supernovae with name, redshift and magnitude; `mb` is renamed. -/
example : shown c!"mag" (readData digit [c!"#name zcmb mb\n", c!"a 1 2\n", c!"b 2 3\n"]) = some (2, [c!"a", c!"b"], some [2, 3]) := by
  decide +kernel

/-- A line of data before the header is refused. -/
theorem readData_noHeader [Zero K] (num : Str → Option K) (line : Str) (rest : List Str) (h1 : '#' ∉ line) (h2 : strip line ≠ []) :
    readData num (line :: rest) = .error .noHeader := by
  unfold readData
  rw [List.foldlM_cons]
  simp only [readLine, h1, h2, if_false]
  rfl

/-- Example. -/
example : shown c!"mag" (readData digit [c!"a 1 2\n", c!"#name zcmb mb\n"]) = none := by decide +kernel

/-! ### matrices -/

/-- A file with the size followed by the numbers gives the matrix row by row. -/
theorem readCov_spec (n : Nat) (hn : 0 < n) (rows : List (List ℝ)) (hl : rows.length = n) (hr : ∀ r ∈ rows, r.length = n) :
    readCov n ((n : ℝ) :: rows.flatten) = .ok rows := by
  have hlen : rows.flatten.length = n * n := by
    rw [List.length_flatten, List.map_congr_left hr]
    simp [hl]
  have hc : covNumbers ((n : ℝ) :: rows.flatten) = rows.flatten := by
    unfold covNumbers
    rw [if_pos (by simp [hlen]; ring)]
    rfl
  have hpos : 0 < n * n := Nat.mul_pos hn hn
  unfold readCov
  rw [if_neg (by simp [hlen]; omega), hc, if_pos hlen]
  congr 1
  apply List.ext_getElem
  · simp [hl]
  · intro i h1 h2
    simp only [List.getElem_map, List.getElem_range]
    have key : ∀ (rs : List (List ℝ)) (i : Nat) (hi : i < rs.length), (∀ r ∈ rs, r.length = n) → (rs.flatten.drop (i * n)).take n = rs[i] := by
      intro rs
      induction rs with
      | nil => intro i hi; simp at hi
      | cons r rs ih =>
        intro i hi h
        have hrn := h r (by simp)
        rcases i with _ | i
        · simp only [List.flatten_cons, Nat.zero_mul, List.drop_zero, List.getElem_cons_zero]
          rw [List.take_append_of_le_length (by omega), List.take_of_length_le (by omega)]
        · simp only [List.flatten_cons, List.getElem_cons_succ]
          rw [show (i + 1) * n = r.length + i * n by rw [hrn]; ring, List.drop_length_add_append]
          exact ih i (by simpa using hi) (fun q hq => h q (by simp [hq]))
    exact key rows i h2 hr

/-- Example: a matrix of size two. -/
example : readCov 2 [2, 1, 0, 0, 1] = .ok [[1, 0], [0, 1]] := by
  have := readCov_spec 2 (by norm_num) [[1, 0], [0, 1]] rfl (by simp)
  simpa using this

/-! ### defects -/

/-- The full statement: blank lines do not matter. -/
def BlankLinesIgnored : Prop :=
  ∀ (num : Str → Option ℚ) (hdr : Str) (rows : List Str) (s s' : Rd ℚ), '#' ∈ hdr → readData num (hdr :: rows) = .ok s →
    readData num (hdr :: rows ++ [c!"\n"]) = .ok s' → s'.ix = s.ix ∧ ∀ c, Dict.get? s'.attrs c = Dict.get? s.attrs c

/-- The arrays are one longer for every blank line of the file (an empty line at the end for example), so their length is not the number of supernovae and
the products with matrices fail.  (SN.py:91) -/
theorem blankLines_fails : ¬ BlankLinesIgnored := by
  intro h
  have h1 : shown c!"mag" (readData digit [c!"#name mb\n", c!"a 1\n"]) = some (1, [c!"a"], some [1]) := by decide +kernel
  have h2 : shown c!"mag" (readData digit ([c!"#name mb\n", c!"a 1\n"] ++ [c!"\n"])) = some (1, [c!"a"], some [1, 0]) := by decide +kernel
  rcases e1 : readData digit [c!"#name mb\n", c!"a 1\n"] with _ | s
  · rw [e1] at h1; simp [shown] at h1
  · rcases e2 : readData digit ([c!"#name mb\n", c!"a 1\n"] ++ [c!"\n"]) with _ | s'
    · rw [e2] at h2; simp [shown] at h2
    · have := (h digit c!"#name mb\n" [c!"a 1\n"] s s' (by decide) e1 e2).2 c!"mag"
      rw [e1] at h1
      rw [e2] at h2
      simp only [shown, Option.some.injEq, Prod.mk.injEq] at h1 h2
      rw [h1.2.2, h2.2.2] at this
      exact absurd this (by decide)

/-- The full statement: what a line of data says stays when more lines follow. -/
def LaterLinesKeep : Prop :=
  ∀ (num : Str → Option ℚ) (lines : List Str) (line : Str) (s s' : Rd ℚ) (c : Str) (x : ℚ), readData num lines = .ok s → 0 < s.ix →
    readData num (lines ++ [line]) = .ok s' → (∃ a, Dict.get? s.attrs c = some a ∧ a[0]? = some x) → ∃ a, Dict.get? s'.attrs c = some a ∧ a[0]? = some x

/-- Any line with a hash sign, a comment after the data or a hash sign in a name, is taken for a header: all values read before are replaced by zeros. (SN.py:83) -/
theorem commentResets_fails : ¬ LaterLinesKeep := by
  intro h
  have h1 : shown c!"mag" (readData digit [c!"#name mb\n", c!"a 1\n"]) = some (1, [c!"a"], some [1]) := by decide +kernel
  have h2 : shown c!"mag" (readData digit ([c!"#name mb\n", c!"a 1\n"] ++ [c!"#name mb\n"])) = some (1, [c!"a"], some [0, 0]) := by decide +kernel
  rcases e1 : readData digit [c!"#name mb\n", c!"a 1\n"] with _ | s
  · rw [e1] at h1; simp [shown] at h1
  · rcases e2 : readData digit ([c!"#name mb\n", c!"a 1\n"] ++ [c!"#name mb\n"]) with _ | s'
    · rw [e2] at h2; simp [shown] at h2
    · rw [e1] at h1
      rw [e2] at h2
      simp only [shown, Option.some.injEq, Prod.mk.injEq] at h1 h2
      obtain ⟨a, ha, ha'⟩ := h digit [c!"#name mb\n", c!"a 1\n"] c!"#name mb\n" s s' c!"mag" 1 e1 (by omega) e2 ⟨[1], h1.2.2, rfl⟩
      rw [h2.2.2, Option.some.injEq] at ha
      subst ha
      simp at ha'

/-- The full statement: the name of the data set stays what the settings say. -/
def NameKept : Prop :=
  ∀ (num : Str → Option ℚ) (hdr : Str) (rows : List Str) (s : Rd ℚ), '#' ∈ hdr → readData num (hdr :: rows) = .ok s → Dict.get? s.attrs c!"name" = none

/-- The column of names makes the reader assign an array of zeros to the attribute `name`, which held the name of the data set.  (SN.py:55, 95-96) -/
theorem nameOverwritten_fails : ¬ NameKept := by
  intro h
  have h1 : shown c!"name" (readData digit [c!"#name mb\n", c!"a 1\n"]) = some (1, [c!"a"], some [0]) := by decide +kernel
  rcases e1 : readData digit [c!"#name mb\n", c!"a 1\n"] with _ | s
  · rw [e1] at h1; simp [shown] at h1
  · have := h digit c!"#name mb\n" [c!"a 1\n"] s (by decide) e1
    rw [e1] at h1
    simp only [shown, Option.some.injEq, Prod.mk.injEq, this] at h1
    exact absurd h1.2.2 (by simp)

/-- The full statement: the inverse depends on the parameters only, not on earlier calls. -/
def InverseOfParameters : Prop :=
  ∀ (n : Nat) (d : Data n) (c : Covs n) (ps : List (ℝ × ℝ)) (a b : ℝ), AllOk d c ⟨none, none⟩ ps →
    (invCov d c (calls d c ⟨none, none⟩ ps) a b).1 = (invCov d c ⟨none, none⟩ a b).1

theorem one_new (s : Cache 1) (a : ℝ) (ha : a ≠ 0) (hs : ¬ isLast s a 0) :
    invCov one oneCov s a 0 = (.ok ((covMat one oneCov a 0)⁻¹), ⟨some (a, 0), some (covMat one oneCov a 0)⁻¹⟩) := by
  have hd : (covMat one oneCov a 0).det ≠ 0 := by
    rw [oneCov_det]
    exact mul_ne_zero ha ha
  have hab : oneCov.alphabeta = true := by simp [oneCov, Covs.alphabeta]
  unfold invCov
  rw [if_neg (fun h => hs h.2), if_neg hd]
  simp [nextLast, hab]

theorem one_inv_inj (a b : ℝ) (ha : a ≠ 0) (hb : b ≠ 0) (h : (covMat one oneCov a 0)⁻¹ = (covMat one oneCov b 0)⁻¹) : a * a = b * b := by
  have h1 : (covMat one oneCov a 0) = covMat one oneCov b 0 := by
    have ua : IsUnit (covMat one oneCov a 0).det := by
      rw [oneCov_det]
      exact isUnit_iff_ne_zero.mpr (mul_ne_zero ha ha)
    have ub : IsUnit (covMat one oneCov b 0).det := by
      rw [oneCov_det]
      exact isUnit_iff_ne_zero.mpr (mul_ne_zero hb hb)
    rw [← nonsing_inv_nonsing_inv _ ua, h, nonsing_inv_nonsing_inv _ ub]
  rw [← oneCov_det a 0, ← oneCov_det b 0, h1]

theorem not_last_none (a b : ℝ) : ¬ isLast (⟨none, none⟩ : Cache 1) a b := by
  rintro ⟨p, hp, -⟩
  cases hp

/-- The inverse is kept for parameters that `np.isclose` regards as equal, so the likelihood near a point depends on which point was computed before:
it is not a function of the parameters, and derivatives by small steps are wrong.  (SN.py:198-199) -/
theorem cachedInverse_fails : ¬ InverseOfParameters := by
  intro h
  have hk : AllOk one oneCov ⟨none, none⟩ [(1, 0)] := ⟨⟨_, by rw [one_new _ 1 one_ne_zero (not_last_none _ _)]⟩, trivial⟩
  have h1 := h 1 one oneCov [(1, 0)] (1 + 1 / 1000000) 0 hk
  have hab : oneCov.alphabeta = true := by simp [oneCov, Covs.alphabeta]
  have hlast : isLast (⟨some (1, 0), some (covMat one oneCov 1 0)⁻¹⟩ : Cache 1) (1 + 1 / 1000000) 0 := by
    refine ⟨(1, 0), rfl, ?_, isClose_self 0⟩
    unfold isClose
    norm_num
  have hc : calls one oneCov ⟨none, none⟩ [(1, 0)] = ⟨some (1, 0), some (covMat one oneCov 1 0)⁻¹⟩ := by
    simp only [calls, List.foldl_cons, List.foldl_nil]
    rw [one_new _ 1 one_ne_zero (not_last_none _ _)]
  rw [hc, one_new ⟨none, none⟩ (1 + 1 / 1000000) (by norm_num) (not_last_none _ _), invCov, if_pos ⟨hab, hlast⟩] at h1
  simp only [Except.ok.injEq] at h1
  have := one_inv_inj 1 (1 + 1 / 1000000) one_ne_zero (by norm_num) h1
  norm_num at this

/-- The full statement: a call that fails fails again when it is repeated. -/
def FailureRepeats : Prop :=
  ∀ (n : Nat) (d : Data n) (c : Covs n) (ps : List (ℝ × ℝ)) (a b : ℝ) (e : Err), AllOk d c ⟨none, none⟩ ps →
    (invCov d c (calls d c ⟨none, none⟩ ps) a b).1 = .error e → (invCov d c (invCov d c (calls d c ⟨none, none⟩ ps) a b).2 a b).1 = .error e

/-- The parameters are stored before the matrix is inverted: when that fails for a singular matrix, the same call succeeds the next time, with the inverse for the
parameters before.  (SN.py:200-201, 224) -/
theorem failedInverse_fails : ¬ FailureRepeats := by
  intro h
  have hk : AllOk one oneCov ⟨none, none⟩ [(1, 0)] := ⟨⟨_, by rw [one_new _ 1 one_ne_zero (not_last_none _ _)]⟩, trivial⟩
  have hab : oneCov.alphabeta = true := by simp [oneCov, Covs.alphabeta]
  have hc : calls one oneCov ⟨none, none⟩ [(1, 0)] = ⟨some (1, 0), some (covMat one oneCov 1 0)⁻¹⟩ := by
    simp only [calls, List.foldl_cons, List.foldl_nil]
    rw [one_new _ 1 one_ne_zero (not_last_none _ _)]
  have hnl : ¬ isLast (⟨some (1, 0), some (covMat one oneCov 1 0)⁻¹⟩ : Cache 1) 0 0 := by
    rintro ⟨p, hp, hq, -⟩
    simp only [Option.mem_def, Option.some.injEq] at hp
    subst hp
    unfold isClose at hq
    norm_num at hq
  have hfail : invCov one oneCov ⟨some (1, 0), some (covMat one oneCov 1 0)⁻¹⟩ 0 0 = (.error .linAlg, ⟨some (0, 0), some (covMat one oneCov 1 0)⁻¹⟩) := by
    unfold invCov
    rw [if_neg (fun h => hnl h.2), if_pos (by rw [oneCov_det]; norm_num)]
    simp [nextLast, hab]
  have h1 := h 1 one oneCov [(1, 0)] 0 0 .linAlg hk (by rw [hc, hfail])
  rw [hc, hfail, invCov, if_pos ⟨hab, (0, 0), rfl, isClose_self 0, isClose_self 0⟩] at h1
  cases h1

/-- The full statement: with marginalisation the likelihood can be computed whether or not matrices are computed in advance. -/
def MargeWithoutPrecompute : Prop :=
  ∀ (n : Nat) (l : Like n) (g : Marge) (dist : Fin n → ℝ), (∀ a b, (covMat l.data l.covs a b).PosDef) →
    ∃ ms x, (start l (some g) false).1 = .ok ms ∧ (margeLike l g ms (start l (some g) false).2 dist).1 = .ok x

/-- With the covariance of magnitudes only, marginalisation and `precompute_covmats=False`, no matrix is ever inverted and the first likelihood fails. (SN.py:179, 183, 248) -/
theorem margeAttribute_fails : ¬ MargeWithoutPrecompute := by
  intro h
  obtain ⟨ms, x, h1, h2⟩ := h 1 ⟨one, ⟨some 1, none, none, none, none, none⟩, none⟩ ⟨0, 1, 1, 0, 0⟩ 0 (by
    intro a b
    have : covMat one ⟨some 1, none, none, none, none, none⟩ a b = 1 := by
      ext i j
      fin_cases i
      fin_cases j
      simp [covMat, covSum, one, Covs.alphabeta, Covs.count, preVars]
    simp only [this]
    exact PosDef.one)
  have hg : gridPoints 0 = [(0, 0)] := by decide +kernel
  simp only [start, Bool.false_eq_true, if_false, Except.ok.injEq] at h1 h2
  subst h1
  simp [margeLike, Marge.values, hg, gridLikes, alphaBetaLike, useMat, Covs.alphabeta, Covs.count, likeWith, consOk, combineWith] at h2

/-- The full statement: the sum of matrices is the covariance of the corrected magnitudes for any correlations. -/
def CrossCovariance : Prop :=
  ∀ (n : Nat) (c : Covs n) (k : Nat) (P S C : Matrix (Fin n) (Fin k) ℝ) (a b : ℝ), c.alphabeta = true → Noise c k P S C →
    covSum c a b = (P + a • S - b • C) * (P + a • S - b • C)ᵀ

/-- The covariance of the magnitude of one supernova with the stretch of another need not be that of the second magnitude with the first stretch; the code adds twice the
matrix instead of the matrix and its transpose, and the result is not even symmetric.  (SN.py:211, 213, 215) -/
theorem crossCovariance_fails : ¬ CrossCovariance := by
  intro h
  have h1 := h 2 ⟨some !![1, 0; 0, 0], some !![0, 0; 0, 1], none, some !![0, 1; 0, 0], none, none⟩ 1 !![1; 0] !![0; 1] 0 1 0
    (by simp [Covs.alphabeta, Covs.count])
    (by
      constructor <;> ext i j <;> fin_cases i <;> fin_cases j <;> simp [Matrix.mul_apply])
  have h2 := congrFun (congrFun h1 0) 1
  simp [covSum, Covs.alphabeta, Covs.count, Matrix.mul_apply] at h2

end Verif.SN
