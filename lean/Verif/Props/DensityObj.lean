import Verif.Model.DensityObj
import Mathlib.Tactic.NormNum

/-!
# C227, C228: density objects and their arrays
-/

namespace Verif.DensityObj
set_option linter.unusedSectionVars false
open Verif.Density (By maxOf)

section
variable {K : Type} [Field K] [LinearOrder K]

/-! ## The spline belongs to the values -/

/-- every spline was made from the present values of its object -/
def Coherent (w : World K) : Prop := ∀ (j : Nat) (o : Obj K), w.objs[j]? = some o → ∀ d, o.spl = some d → ∃ a, w.heap[o.P]? = some a ∧ a.data = d

/-- what is done in place is done to an array that no other object has made a spline of -/
def Safe (w : World K) : Op K → Prop
  | .normalize i _ true => ∀ (j : Nat) (o o' : Obj K), j ≠ i → w.objs[i]? = some o → w.objs[j]? = some o' → o'.P = o.P → o'.spl = none
  | .write r _ => ∀ (j : Nat) (o : Obj K), w.objs[j]? = some o → o.P = r → o.spl = none
  | _ => True

/-- object `i` without a spline -/
theorem coherent_set (w : World K) (h : Coherent w) (heap : List (Arr K)) (hh : ∀ (r : Nat) (a : Arr K), w.heap[r]? = some a → heap[r]? = some a) (i : Nat) (o : Obj K) (ho : o.spl = none) :
    Coherent ⟨heap, w.objs.set i o⟩ := by
  intro j o' hj d hd
  dsimp only at hj
  rw [List.getElem?_set] at hj
  by_cases e : i = j
  · rw [if_pos e] at hj
    split at hj
    · cases hj; rw [ho] at hd; cases hd
    · cases hj
  · rw [if_neg e] at hj
    obtain ⟨a, h1, h2⟩ := h j o' hj d hd
    exact ⟨a, hh _ _ h1, h2⟩

theorem append_get (l : List (Arr K)) (x : List (Arr K)) (r : Nat) (a : Arr K) (h : l[r]? = some a) : (l ++ x)[r]? = some a := by
  have : r < l.length := by
    by_contra hc
    rw [List.getElem?_eq_none (Nat.le_of_not_lt hc)] at h; cases h
  rw [List.getElem?_append_left this, h]

theorem setP_spec (w : World K) (o : Obj K) (P : Option Nat) (w' : World K) (o' : Obj K) (h : setP w o P = .ok (w', o')) :
    w'.objs = w.objs ∧ o'.spl = none ∧ o'.axes = o.axes ∧ (∀ (r : Nat) (a : Arr K), w.heap[r]? = some a → w'.heap[r]? = some a) ∧ (∀ r, P = some r → w' = w ∧ o'.P = r) ∧
      (P = none → w'.heap[o'.P]? = some (zeros o.axes) ∧ o'.P = w.heap.length) := by
  unfold setP at h
  cases P with
  | none =>
    cases h
    refine ⟨rfl, rfl, rfl, fun r a hr => append_get _ _ r a hr, fun r hr => (by cases hr), fun _ => ⟨?_, rfl⟩⟩
    dsimp only
    rw [List.getElem?_append_right (Nat.le_refl _), Nat.sub_self]; rfl
  | some r =>
    dsimp only at h
    cases hr : w.heap[r]? with
    | none => rw [hr] at h; cases h
    | some a =>
      rw [hr] at h
      dsimp only at h
      split at h
      · cases h
        exact ⟨rfl, rfl, rfl, fun _ _ h => h, fun r' h' => by cases h'; exact ⟨rfl, rfl⟩, fun h' => by cases h'⟩
      · cases h

theorem step_coherent (integral : Arr K → K) (w w' : World K) (op : Op K) (h : Coherent w) (hs : Safe w op) (hst : step integral w op = .ok w') : Coherent w' := by
  cases op with
  | create axes view P =>
    unfold step create at hst
    dsimp only at hst
    cases e : setP w ⟨axes, view, 0, none⟩ P with
    | error e' => rw [e] at hst; cases hst
    | ok r =>
      rw [e] at hst
      cases hst
      obtain ⟨h1, h2, _, h4, _⟩ := setP_spec w _ P r.1 r.2 e
      intro j o hj d hd
      dsimp only at hj
      rw [h1] at hj
      by_cases hl : j < w.objs.length
      · rw [List.getElem?_append_left hl] at hj
        obtain ⟨a, ha, hb⟩ := h j o hj d hd
        exact ⟨a, h4 _ _ ha, hb⟩
      · rw [List.getElem?_append_right (Nat.le_of_not_lt hl)] at hj
        cases hk : j - w.objs.length with
        | zero => rw [hk] at hj; cases hj; rw [h2] at hd; cases hd
        | succ k => rw [hk] at hj; cases hj
  | setP i P =>
    unfold step at hst
    dsimp only at hst
    cases ho : w.objs[i]? with
    | none => rw [ho] at hst; cases hst
    | some o =>
      rw [ho] at hst
      dsimp only at hst
      cases e : setP w o P with
      | error e' => rw [e] at hst; cases hst
      | ok r =>
        rw [e] at hst
        cases hst
        obtain ⟨h1, h2, _, h4, _⟩ := setP_spec w _ P r.1 r.2 e
        rw [h1]
        exact coherent_set w h _ h4 i _ h2
  | normalize i b p =>
    unfold step normalize at hst
    dsimp only at hst
    cases ho : w.objs[i]? with
    | none => rw [ho] at hst; cases hst
    | some o =>
      rw [ho] at hst
      dsimp only at hst
      cases ha : w.heap[o.P]? with
      | none => rw [ha] at hst; cases hst
      | some a =>
        rw [ha] at hst
        dsimp only at hst
        cases hn : norm integral b a with
        | error e => rw [hn] at hst; cases hst
        | ok n =>
          rw [hn] at hst
          dsimp only at hst
          cases p with
          | true =>
            rw [if_pos rfl] at hst
            cases hst
            intro j o' hj d hd
            dsimp only at hj
            rw [List.getElem?_set] at hj
            by_cases e : i = j
            · rw [if_pos e] at hj
              split at hj
              · cases hj; cases hd
              · cases hj
            · rw [if_neg e] at hj
              obtain ⟨a', h1, h2⟩ := h j o' hj d hd
              have hne : o'.P ≠ o.P := by
                intro hp
                have := hs j o o' (fun h => e h.symm) ho hj hp
                rw [this] at hd; cases hd
              refine ⟨a', ?_, h2⟩
              dsimp only
              rw [List.getElem?_set, if_neg (fun h => hne h.symm), h1]
          | false =>
            rw [if_neg (by decide)] at hst
            cases e : setP ⟨w.heap ++ [scaled a n], w.objs⟩ o (some w.heap.length) with
            | error e' => rw [e] at hst; cases hst
            | ok r =>
              rw [e] at hst
              cases hst
              obtain ⟨h1, h2, _, h4, _⟩ := setP_spec _ _ _ r.1 r.2 e
              rw [h1]
              exact coherent_set w h _ (fun r' a' hr => h4 _ _ (append_get _ _ r' a' hr)) i _ h2
  | call i =>
    unfold step call at hst
    dsimp only at hst
    cases ho : w.objs[i]? with
    | none => rw [ho] at hst; cases hst
    | some o =>
      rw [ho] at hst
      dsimp only at hst
      cases hsp : o.spl with
      | some d => rw [hsp] at hst; cases hst; exact h
      | none =>
        rw [hsp] at hst
        dsimp only at hst
        cases ha : w.heap[o.P]? with
        | none => rw [ha] at hst; cases hst
        | some a =>
          rw [ha] at hst
          cases hst
          intro j o' hj d hd
          dsimp only at hj
          rw [List.getElem?_set] at hj
          by_cases e : i = j
          · rw [if_pos e] at hj
            split at hj
            · cases hj; cases hd; exact ⟨a, ha, rfl⟩
            · cases hj
          · rw [if_neg e] at hj
            exact h j o' hj d hd
  | write r d =>
    unfold step at hst
    dsimp only at hst
    cases ha : w.heap[r]? with
    | none => rw [ha] at hst; cases hst
    | some a =>
      rw [ha] at hst
      cases hst
      intro j o hj d' hd
      obtain ⟨a', h1, h2⟩ := h j o hj d' hd
      have hne : o.P ≠ r := by
        intro hp
        have := hs j o hj hp
        rw [this] at hd; cases hd
      refine ⟨a', ?_, h2⟩
      dsimp only
      rw [List.getElem?_set, if_neg (fun h => hne h.symm), h1]

/-- all steps of a run are safe -/
def SafeRun (integral : Arr K → K) : World K → List (Op K) → Prop
  | _, [] => True
  | w, op :: ops => Safe w op ∧ ∀ w', step integral w op = .ok w' → SafeRun integral w' ops

/-- **C227**: after any safe history every spline belongs to the present values -/
theorem run_coherent (integral : Arr K → K) : ∀ (ops : List (Op K)) (w w' : World K), Coherent w → SafeRun integral w ops → run integral w ops = .ok w' → Coherent w'
  | [], w, w', h, _, hr => by cases hr; exact h
  | op :: ops, w, w', h, hs, hr => by
    rw [run] at hr
    cases e : step integral w op with
    | error e' => rw [e] at hr; cases hr
    | ok w1 =>
      rw [e] at hr
      exact run_coherent integral ops w1 w' (step_coherent integral w w1 op h hs.1 e) (hs.2 w1 e) hr

example : (run (fun _ => 2) (⟨[⟨[3], [1, 4, 2]⟩], [⟨[[0, 1, 2]], none, 0, none⟩]⟩ : World ℚ) [.call 0, .normalize 0 .integral false, .call 0]).toOption.map
    (fun w => w.objs.map (fun o => (o.P, o.spl))) = some [(1, some [1 / 2, 2, 1])] := by decide +kernel

/-- does not change arrays that exist -/
def Copies : Op K → Prop
  | .normalize _ _ p => p = false
  | .write _ _ => False
  | _ => True

/-- **C227**: in particular if nothing is done in place, however arrays are shared -/
theorem copies_coherent (integral : Arr K → K) : ∀ (ops : List (Op K)) (w w' : World K), Coherent w → (∀ op ∈ ops, Copies op) → run integral w ops = .ok w' → Coherent w' := by
  intro ops w w' h hc
  refine run_coherent integral ops w w' h ?_
  clear h
  induction ops generalizing w with
  | nil => trivial
  | cons op ops ih =>
    refine ⟨?_, fun w1 _ => ih w1 (fun o ho => hc o (List.mem_cons_of_mem _ ho))⟩
    have := hc op (List.mem_cons_self ..)
    cases op with
    | normalize i b p => cases p with
      | true => cases this
      | false => trivial
    | write r d => exact this.elim
    | create a v P => trivial
    | setP i P => trivial
    | call i => trivial

example : (run (fun _ => 2) (⟨[⟨[3], [1, 4, 2]⟩], [⟨[[0, 1, 2]], none, 0, none⟩, ⟨[[0, 1, 2]], none, 0, none⟩]⟩ : World ℚ) [.call 0, .normalize 1 .max false, .call 1, .call 0]).toOption.map
    (fun w => w.objs.map (fun o => (o.P, o.spl))) = some [(0, some [1, 4, 2]), (1, some [1 / 4, 1, 1 / 2])] := by decide +kernel

/-- **C227**: a call interpolates the present values of the object -/
theorem call_present (w w' : World K) (i : Nat) (d : List K) (h : Coherent w) (hc : call w i = .ok (w', d)) :
    ∃ o a, w.objs[i]? = some o ∧ w.heap[o.P]? = some a ∧ d = a.data ∧ w'.heap = w.heap := by
  unfold call at hc
  cases ho : w.objs[i]? with
  | none => rw [ho] at hc; cases hc
  | some o =>
    rw [ho] at hc
    dsimp only at hc
    cases hsp : o.spl with
    | some d' =>
      rw [hsp] at hc
      cases hc
      obtain ⟨a, h1, h2⟩ := h i o ho _ hsp
      exact ⟨o, a, rfl, h1, h2.symm, rfl⟩
    | none =>
      rw [hsp] at hc
      dsimp only at hc
      cases ha : w.heap[o.P]? with
      | none => rw [ha] at hc; cases hc
      | some a =>
        rw [ha] at hc
        cases hc
        exact ⟨o, a, rfl, ha, rfl, rfl⟩

/-- **C227**: normalising a copy leaves all arrays and all other objects as they are; the object gets the scaled values -/
theorem normalize_copy (integral : Arr K → K) (w w' : World K) (i : Nat) (b : By) (h : normalize integral w i b false = .ok w') :
    (∀ (r : Nat) (a : Arr K), w.heap[r]? = some a → w'.heap[r]? = some a) ∧ (∀ j : Nat, j ≠ i → w'.objs[j]? = w.objs[j]?) ∧
    ∃ o o' a n, w.objs[i]? = some o ∧ w.heap[o.P]? = some a ∧ norm integral b a = .ok n ∧ w'.objs[i]? = some o' ∧ o'.spl = none ∧ w'.heap[o'.P]? = some (scaled a n) ∧
      w.heap.length ≤ o'.P := by
  unfold normalize at h
  cases ho : w.objs[i]? with
  | none => rw [ho] at h; cases h
  | some o =>
    rw [ho] at h
    dsimp only at h
    cases ha : w.heap[o.P]? with
    | none => rw [ha] at h; cases h
    | some a =>
      rw [ha] at h
      dsimp only at h
      cases hn : norm integral b a with
      | error e => rw [hn] at h; cases h
      | ok n =>
        rw [hn] at h
        dsimp only at h
        rw [if_neg (by decide)] at h
        cases e : setP ⟨w.heap ++ [scaled a n], w.objs⟩ o (some w.heap.length) with
        | error e' => rw [e] at h; cases h
        | ok r =>
          rw [e] at h
          cases h
          obtain ⟨_, h2, _, _, h5, _⟩ := setP_spec _ _ _ r.1 r.2 e
          obtain ⟨e1, e2⟩ := h5 _ rfl
          have hi : i < w.objs.length := by
            by_contra hc
            rw [List.getElem?_eq_none (Nat.le_of_not_lt hc)] at ho; cases ho
          refine ⟨?_, ?_, o, r.2, a, n, rfl, ha, hn, ?_, h2, ?_, ?_⟩
          · intro r' a' hr
            dsimp only
            rw [e1]
            exact append_get _ _ r' a' hr
          · intro j hj
            dsimp only
            rw [e1, List.getElem?_set, if_neg (fun h => hj h.symm)]
          · dsimp only
            rw [e1, List.getElem?_set, if_pos rfl, if_pos hi]
          · dsimp only
            rw [e1, e2, List.getElem?_append_right (Nat.le_refl _), Nat.sub_self]; rfl
          · rw [e2]

/-- **C227**: normalising in place changes the one array, whoever has it, and no other -/
theorem normalize_place (integral : Arr K → K) (w w' : World K) (i : Nat) (b : By) (h : normalize integral w i b true = .ok w') :
    ∃ o a n, w.objs[i]? = some o ∧ w.heap[o.P]? = some a ∧ norm integral b a = .ok n ∧ w'.heap = w.heap.set o.P (scaled a n) ∧ w'.objs = w.objs.set i { o with spl := none } := by
  unfold normalize at h
  cases ho : w.objs[i]? with
  | none => rw [ho] at h; cases h
  | some o =>
    rw [ho] at h
    dsimp only at h
    cases ha : w.heap[o.P]? with
    | none => rw [ha] at h; cases h
    | some a =>
      rw [ha] at h
      dsimp only at h
      cases hn : norm integral b a with
      | error e => rw [hn] at h; cases h
      | ok n =>
        rw [hn] at h
        cases h
        exact ⟨o, a, n, rfl, ha, hn, rfl, rfl⟩

/-! ## Sizes and bounds -/

theorem fits_iff : ∀ (shape : List Nat) (axes : List (List K)), shape.length = axes.length → (fits shape axes = true ↔ shape = axes.map List.length)
  | [], [], _ => by simp [fits]
  | n :: ns, ax :: axs, h => by
    have ih := fits_iff ns axs (by simpa using h)
    rw [fits, Bool.and_eq_true, ih, List.map_cons, List.cons.injEq]
    simp
  | [], _ :: _, h => by simp at h
  | _ :: _, [], h => by simp at h

/-- **C227**: an array with as many axes as the density is accepted exactly if it has the sizes of the axes, and the default has them -/
theorem setP_accepts (w : World K) (o : Obj K) (r : Nat) (a : Arr K) (hr : w.heap[r]? = some a) (hd : a.shape.length = o.axes.length) :
    (∃ x, setP w o (some r) = .ok x) ↔ a.shape = o.axes.map List.length := by
  unfold setP
  dsimp only
  rw [hr]
  dsimp only
  rw [← fits_iff a.shape o.axes hd]
  constructor
  · rintro ⟨x, hx⟩
    by_cases h : fits a.shape o.axes = true
    · exact h
    · rw [if_neg h] at hx; cases hx
  · intro h
    rw [if_pos h]
    exact ⟨_, rfl⟩

example : (setP (⟨[⟨[2, 3], [1, 2, 3, 4, 5, 6]⟩], []⟩ : World ℚ) ⟨[[0, 1], [0, 1, 2]], none, 0, none⟩ (some 0)).toOption.map (fun r => r.2.P) = some 0 ∧
    (setP (⟨[⟨[2, 3], [1, 2, 3, 4, 5, 6]⟩], []⟩ : World ℚ) ⟨[[0, 1, 2], [0, 1]], none, 0, none⟩ (some 0)).toOption.map (fun r => r.2.P) = none := by decide +kernel

/-- **C227**: bounds come in the order x, y, z, ..., and are those of the view if there is one -/
theorem bounds_spec (xs : List (List K)) (x y : List K) (v : List (K × K)) (P : Nat) (s : Option (List K)) :
    bounds ⟨axesN xs, none, P, s⟩ = xs.map ends ∧ bounds ⟨axes2 x y, none, P, s⟩ = [ends x, ends y] ∧ bounds ⟨axesN xs, some v, P, s⟩ = v := by
  refine ⟨?_, rfl, rfl⟩
  unfold bounds axesN
  dsimp only
  rw [← List.map_reverse, List.reverse_reverse]

/-! ## Values -/

/-- a library that interpolates: at the points of the grid it gives the values there -/
def Interpolates (interp : List K → List K → (Nat → Nat → K) → K → K → K) : Prop :=
  ∀ (x y : List K) (Z : Nat → Nat → K) (i j : Nat) (u v : K), x[i]? = some u → y[j]? = some v → interp x y Z u v = Z i j

/-- **C227**: at a point of the grid a two-dimensional density has the value of its array, whose rows are values of y -/
theorem call2_grid (interp : List K → List K → (Nat → Nat → K) → K → K → K) (hi : Interpolates interp) (x y : List K) (rows : List (List K)) (hr : ∀ r ∈ rows, r.length = x.length)
    (i j : Nat) (u v p : K) (r : List K) (hu : x[i]? = some u) (hv : y[j]? = some v) (hj : rows[j]? = some r) (hp : r[i]? = some p) :
    call2 interp x y rows.flatten u v = p := by
  unfold call2
  rw [hi x y _ i j u v hu hv]
  unfold entry
  have hi' : i < x.length := by
    by_contra hc
    rw [List.getElem?_eq_none (Nat.le_of_not_lt hc)] at hu; cases hu
  have : ∀ (rows : List (List K)) (j : Nat), (∀ r ∈ rows, r.length = x.length) → rows[j]? = some r → rows.flatten[j * x.length + i]? = some p := by
    intro rows
    induction rows with
    | nil => intro j _ h; simp at h
    | cons r0 rows ih =>
      intro j hr hj
      have h0 := hr r0 (List.mem_cons_self ..)
      cases j with
      | zero =>
        simp only [List.getElem?_cons_zero, Option.some.injEq] at hj
        subst hj
        rw [List.flatten_cons, Nat.zero_mul, Nat.zero_add, List.getElem?_append_left (by omega), hp]
      | succ j =>
        rw [List.getElem?_cons_succ] at hj
        rw [List.flatten_cons, List.getElem?_append_right (by rw [Nat.succ_mul]; omega)]
        have : (j + 1) * x.length + i - r0.length = j * x.length + i := by rw [Nat.succ_mul]; omega
        rw [this]
        exact ih j (fun r hr' => hr r (List.mem_cons_of_mem _ hr')) hj
  rw [List.getD_eq_getElem?_getD, this rows j hr hj]; rfl

example : call2 (fun x y f u v => f (x.idxOf u) (y.idxOf v)) [(0 : ℚ), 1, 2] [5, 6] [1, 2, 3, 4, 5, 6] 2 5 = 3 := by decide +kernel

/-- **C227**: a one-dimensional density vanishes outside its grid and interpolates inside -/
theorem prob1_spec (interp : List K → List K → K → K) (x d us : List K) : (prob1 interp x d us).length = us.length ∧
    ∀ (k : Nat) (u : K), us[k]? = some u → ((u < (ends x).1 ∨ (ends x).2 < u) → (prob1 interp x d us)[k]? = some 0) ∧
      ((ends x).1 ≤ u → u ≤ (ends x).2 → (prob1 interp x d us)[k]? = some (interp x d u)) := by
  unfold prob1
  refine ⟨List.length_map .., fun k u hu => ⟨?_, ?_⟩⟩
  · intro h
    rw [List.getElem?_map, hu, Option.map_some, if_neg]
    rintro ⟨h1, h2⟩
    rcases h with h | h
    · exact absurd h (not_lt.mpr h1)
    · exact absurd h (not_lt.mpr h2)
  · intro h1 h2
    rw [List.getElem?_map, hu, Option.map_some, if_pos ⟨h1, h2⟩]

example : prob1 (fun x d u => d.getD (x.idxOf u) 0) [(0 : ℚ), 1, 2] [3, 5, 4] [1, 2, 7] = [5, 4, 0] := by decide +kernel

/-- **C228**: if the parameters exist a normalised density can be had; else not normalised, there is none -/
theorem get2D_partial (integral : Arr K → K) (a : Arr K) : get2D integral (some a) true = .ok (some (scaled a (integral a))) ∧ get2D integral (some a) false = .ok (some a) ∧
    get2D integral none false = .ok none := ⟨rfl, rfl, rfl⟩

end

/-! ## Examples -/

/-- an array shared by two densities -/
def exWorld : World ℚ := ⟨[⟨[3], [1, 4, 2]⟩], [⟨[[0, 1, 2]], none, 0, none⟩, ⟨[[5, 6, 7]], none, 0, none⟩]⟩

def trapezoid (a : Arr ℚ) : ℚ := Verif.Density.integrate1 1 a.data

example : (run trapezoid exWorld [.call 0, .normalize 1 .max false, .call 1]).toOption.map (fun w => w.objs.map (fun o => (o.P, o.spl))) =
    some [(0, some [1, 4, 2]), (1, some [1 / 4, 1, 1 / 2])] := by decide +kernel

example : bounds ⟨axes2 [0, 1, 3] [(5 : ℚ), 8], none, 0, none⟩ = [(0, 3), (5, 8)] := by decide +kernel

/-! ## What fails -/

/-- a call gives the present values whatever is done with densities -/
def AlwaysPresent : Prop := ∀ (ops : List (Op ℚ)) (w w' : World ℚ) (i : Nat) (d : List ℚ) (w'' : World ℚ), Coherent w → (∀ op ∈ ops, ∀ r d, op ≠ .write r d) → run trapezoid w ops = .ok w' →
  call w' i = .ok (w'', d) → ∃ o a, w'.objs[i]? = some o ∧ w'.heap[o.P]? = some a ∧ d = a.data

/-- **C228 fails**: `normalize(in_place=True)` forgets the spline of its own object only (densities.py:85-89): another density on the same array, called before,
keeps giving the old values, although its `P` has changed -/
theorem shared_fails : ¬ AlwaysPresent := by
  intro h
  obtain ⟨o, a, h1, h2, h3⟩ := h [.call 0, .normalize 1 .max true] exWorld
    ⟨[⟨[3], [1 / 4, 1, 1 / 2]⟩], [⟨[[0, 1, 2]], none, 0, some [1, 4, 2]⟩, ⟨[[5, 6, 7]], none, 0, none⟩]⟩ 0 [1, 4, 2] _ (by
      intro j o hj d hd
      match j with
      | 0 => cases hj; cases hd
      | 1 => cases hj; cases hd
      | j + 2 => cases hj) (by
      intro op hop r d e
      subst e
      rcases List.mem_cons.mp hop with h | h
      · cases h
      · cases List.mem_singleton.mp h) (by
      have : (scaled (⟨[3], [1, 4, 2]⟩ : Arr ℚ) 4) = ⟨[3], [1 / 4, 1, 1 / 2]⟩ := by decide +kernel
      rw [← this]; rfl) rfl
  cases h1
  cases h2
  revert h3
  decide +kernel

/-- only arrays with the sizes of the axes are accepted -/
def SizesChecked : Prop := ∀ (w : World ℚ) (o : Obj ℚ) (r : Nat) (a : Arr ℚ), w.heap[r]? = some a → (∃ x, setP w o (some r) = .ok x) → a.shape = o.axes.map List.length

/-- **C228 fails**: sizes are compared with `zip` (densities.py:99): an array of one dimension passes for a density of two if it has the length of its y axis -/
theorem sizes_fails : ¬ SizesChecked := by
  intro h
  have := h ⟨[⟨[2], [1, 4]⟩], []⟩ ⟨axes2 [0, 1, 3] [5, 8], none, 0, none⟩ 0 ⟨[2], [1, 4]⟩ rfl ⟨_, rfl⟩
  revert this
  decide +kernel

/-- `Prob` gives the density in two dimensions -/
def ProbReturns : Prop := ∀ (interp : List ℚ → List ℚ → (Nat → Nat → ℚ) → ℚ → ℚ → ℚ) (x y d : List ℚ) (u v : ℚ), prob2 interp x y d u v = some (call2 interp x y d u v)

/-- **C228 fails**: `Density2D.Prob` computes the density but does not return it (densities.py:290), so that the result is always `None` -/
theorem prob2_fails : ¬ ProbReturns := by
  intro h
  have := h (fun _ _ _ _ _ => 0) [] [] [] 0 0
  cases this

/-- unknown parameters give no density, normalised or not -/
def UnknownNone : Prop := ∀ normalized, get2D trapezoid none normalized = .ok none

/-- **C228 fails**: `get2DDensity` with `normalized` calls a method of the `None` that it gets for an unknown parameter (mcsamples.py:1616-1618): AttributeError -/
theorem unknown_fails : ¬ UnknownNone := by
  intro h
  have := h true
  cases this

end Verif.DensityObj
