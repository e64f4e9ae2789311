import Verif.Model.SampleRanges
import Verif.Props.Bounds
import Mathlib.Algebra.Field.Rat

/-!
# The ranges of a chain (C267, C268)
-/

namespace Verif.SampleRanges
open Verif.Py Verif.Bounds
set_option linter.unusedSectionVars false

variable {K : Type} [Field K] [LinearOrder K] [IsStrictOrderedRing K] [FloorRing K]

/-- specification: a limit as given means this number, or nothing -/
inductive Means : Lim K → Option K → Prop
  | none : Means .none none
  | inf : Means .inf none
  | num (x : K) : Means (.num x) (some x)
  | noLimit : Means (.text c!"N") none
  | text (s : Str) (x : K) (h : s ≠ c!"N") (hx : floatStr s = some x) : Means (.text s) (some x)

theorem value_means {l : Lim K} {o : Option K} (h : l.value = .ok o) : Means l o := by
  cases l with
  | none => injection h with h; subst h; exact .none
  | inf => injection h with h; subst h; exact .inf
  | num x => injection h with h; subst h; exact .num x
  | text s =>
    unfold Lim.value at h
    dsimp only at h
    by_cases hs : s = c!"N"
    · rw [if_pos hs] at h; injection h with h; subst h; subst hs; exact .noLimit
    · rw [if_neg hs] at h
      cases hf : (floatStr s : Option K) with
      | none => rw [hf] at h; cases h
      | some x => rw [hf] at h; injection h with h; subst h; exact .text s x hs hf

/-- **C267**: setting a range succeeds exactly when `ParamBounds.setRange` does, with the same result. -/
theorem setRange_agrees (b b' : ParamBounds K) (n : Str) (r : Lim K × Lim K) :
    setRange b n r = (b', none) ↔ Bounds.setRange b n r.1 r.2 = .ok b' := by
  obtain ⟨lo, hi⟩ := r
  unfold setRange Bounds.setRange
  dsimp only
  cases hl : lo.value with
  | error e => constructor <;> intro h <;> cases h
  | ok l =>
    cases hu : hi.value with
    | error e => constructor <;> intro h <;> cases h
    | ok u =>
      constructor
      · intro h; injection h with h _; subst h; rfl
      · intro h; injection h with h; subst h; rfl

example : setRange ({} : ParamBounds ℚ) c!"x" (.num 1, .text c!"N") = ({ names := [c!"x"], lower := [(c!"x", 1)] }, none) := by decide +kernel

/-- what one range that is accepted does -/
theorem setRange_spec {b b' : ParamBounds K} {n : Str} {r : Lim K × Lim K} (h : setRange b n r = (b', none)) :
    ∃ l u, Means r.1 l ∧ Means r.2 u ∧ getLower b' n = l.or (getLower b n) ∧ getUpper b' n = u.or (getUpper b n) ∧
      ∀ m, m ≠ n → getLower b' m = getLower b m ∧ getUpper b' m = getUpper b m := by
  obtain ⟨lo, hi⟩ := r
  unfold setRange at h
  dsimp only at h
  cases hl : lo.value with
  | error e => rw [hl] at h; cases h
  | ok l =>
    rw [hl] at h
    cases hu : hi.value with
    | error e => rw [hu] at h; cases h
    | ok u =>
      rw [hu] at h
      injection h with h _
      subst h
      refine ⟨l, u, value_means hl, value_means hu, ?_, ?_, fun m hm => ⟨?_, ?_⟩⟩
      · unfold getLower; dsimp only; rw [get_store, if_pos rfl]
      · unfold getUpper; dsimp only; rw [get_store, if_pos rfl]
      · unfold getLower; dsimp only; rw [get_store, if_neg (fun e => hm e.symm)]
      · unfold getUpper; dsimp only; rw [get_store, if_neg (fun e => hm e.symm)]

theorem setAll_cons {b b' : ParamBounds K} {e : Str × Lim K × Lim K} {es : List (Str × Lim K × Lim K)} (h : setAll b (e :: es) = (b', none)) :
    ∃ b1, setRange b e.1 e.2 = (b1, none) ∧ setAll b1 es = (b', none) := by
  rw [setAll] at h
  rcases hs : setRange b e.1 e.2 with ⟨b1, o⟩
  rw [hs] at h
  cases o with
  | some err => cases h
  | none => exact ⟨b1, rfl, h⟩

/-- ranges of parameters that are not named stay -/
theorem setAll_other : ∀ {l : List (Str × Lim K × Lim K)} {b b' : ParamBounds K}, setAll b l = (b', none) → ∀ n, n ∉ l.map (·.1) →
    getLower b' n = getLower b n ∧ getUpper b' n = getUpper b n
  | [], b, b', h, n, _ => by injection h with h _; subst h; exact ⟨rfl, rfl⟩
  | e :: es, b, b', h, n, hn => by
    obtain ⟨b1, h1, h2⟩ := setAll_cons h
    obtain ⟨_, _, _, _, _, _, ho⟩ := setRange_spec h1
    rw [List.map_cons, List.mem_cons, not_or] at hn
    obtain ⟨hl, hu⟩ := setAll_other h2 n hn.2
    obtain ⟨hl', hu'⟩ := ho n hn.1
    exact ⟨hl.trans hl', hu.trans hu'⟩

/-- **C267**: ranges given for different names: each limit given is the one reported for its own parameter, a limit left out stays as it was, and
the ranges of all other parameters stay. -/
theorem setAll_spec : ∀ {l : List (Str × Lim K × Lim K)} {b b' : ParamBounds K}, (l.map (·.1)).Nodup → setAll b l = (b', none) →
    (∀ n lo hi, (n, lo, hi) ∈ l → ∃ x y, Means lo x ∧ Means hi y ∧ getLower b' n = x.or (getLower b n) ∧ getUpper b' n = y.or (getUpper b n)) ∧
    ∀ n, n ∉ l.map (·.1) → getLower b' n = getLower b n ∧ getUpper b' n = getUpper b n
  | [], b, b', _, h => ⟨by simp, fun n hn => setAll_other h n hn⟩
  | e :: es, b, b', hn, h => by
    refine ⟨?_, fun n hm => setAll_other h n hm⟩
    obtain ⟨b1, h1, h2⟩ := setAll_cons h
    rw [List.map_cons, List.nodup_cons] at hn
    obtain ⟨x, y, hx, hy, hlx, hly, ho⟩ := setRange_spec h1
    intro n lo hi hm
    rcases List.mem_cons.1 hm with he | hm
    · subst he
      obtain ⟨hl, hu⟩ := setAll_other h2 n hn.1
      exact ⟨x, y, hx, hy, hl.trans hlx, hu.trans hly⟩
    · obtain ⟨x2, y2, hx2, hy2, hl2, hu2⟩ := (setAll_spec hn.2 h2).1 n lo hi hm
      have hne : n ≠ e.1 := fun he => hn.1 (he ▸ List.mem_map.2 ⟨_, hm, rfl⟩)
      obtain ⟨hl', hu'⟩ := ho n hne
      exact ⟨x2, y2, hx2, hy2, by rw [hl2, hl'], by rw [hu2, hu']⟩

example : setAll ({} : ParamBounds ℚ) [(c!"x", .num 1, .none), (c!"y", .text c!"2", .inf)] =
    ({ names := [c!"x", c!"y"], lower := [(c!"x", 1), (c!"y", 2)] }, none) := by decide +kernel

theorem setRanges_ok {s s' : St K} {a : Arg K} (h : setRanges s a = (s', none)) :
    newRanges (s.pars.map (·.name)) s.ranges a = (s'.ranges, none) ∧ s'.needsUpdate = true ∧ s'.pars = s.pars := by
  unfold setRanges at h
  rcases hn : newRanges (s.pars.map (·.name)) s.ranges a with ⟨b, o⟩
  rw [hn] at h
  cases o with
  | some e => cases h
  | none => injection h with h _; subst h; exact ⟨hn, rfl, rfl⟩

/-- **C267**: `setRanges` with a dictionary: each parameter named has the limits given, those left out and all other parameters keep theirs, and the
statistics are out of date. -/
theorem dict_spec {s s' : St K} {d : List (Str × Lim K × Lim K)} (hd : (d.map (·.1)).Nodup) (h : setRanges s (.dict d) = (s', none)) :
    (∀ n lo hi, (n, lo, hi) ∈ d → ∃ x y, Means lo x ∧ Means hi y ∧ getLower s'.ranges n = x.or (getLower s.ranges n) ∧
      getUpper s'.ranges n = y.or (getUpper s.ranges n)) ∧
    (∀ n, n ∉ d.map (·.1) → getLower s'.ranges n = getLower s.ranges n ∧ getUpper s'.ranges n = getUpper s.ranges n) ∧
    s'.needsUpdate = true := by
  obtain ⟨h1, h2, _⟩ := setRanges_ok h
  obtain ⟨h3, h4⟩ := setAll_spec hd h1
  exact ⟨h3, h4, h2⟩

example : (setRanges (⟨[⟨c!"x", none⟩], {}, false⟩ : St ℚ) (.dict [(c!"x", .num 0, .num 1)])).2 = none := by decide +kernel

/-- **C267**: `setRanges` with a list: the ranges are those of the parameters at the same positions; there are not more than parameters; the other
parameters keep theirs. -/
theorem list_spec {s s' : St K} {l : List (Lim K × Lim K)} (hn : (s.pars.map (·.name)).Nodup) (h : setRanges s (.list l) = (s', none)) :
    l.length ≤ s.pars.length ∧ s'.needsUpdate = true ∧
    (∀ (i : Nat) (p : Par K) (r : Lim K × Lim K), s.pars[i]? = some p → l[i]? = some r → ∃ x y, Means r.1 x ∧ Means r.2 y ∧
      getLower s'.ranges p.name = x.or (getLower s.ranges p.name) ∧ getUpper s'.ranges p.name = y.or (getUpper s.ranges p.name)) ∧
    ∀ n, n ∉ (s.pars.take l.length).map (·.name) → getLower s'.ranges n = getLower s.ranges n ∧ getUpper s'.ranges n = getUpper s.ranges n := by
  obtain ⟨h1, h2, _⟩ := setRanges_ok h
  rw [newRanges, setList] at h1
  rcases hs : setAll s.ranges ((s.pars.map (·.name)).zip l) with ⟨b, o⟩
  rw [hs] at h1
  cases o with
  | some e => cases h1
  | none =>
    injection h1 with hb hlen
    subst hb
    have hle : l.length ≤ s.pars.length := by
      by_contra hc
      rw [if_pos (by rw [List.length_map]; omega)] at hlen
      cases hlen
    have hmap : ((s.pars.map (·.name)).zip l).map (·.1) = (s.pars.take l.length).map (·.name) := by
      have hz : ∀ (a : List Str) (c : List (Lim K × Lim K)), (a.zip c).map (·.1) = a.take c.length := by
        intro a
        induction a with
        | nil => intro c; simp
        | cons x xs ih =>
          intro c
          cases c with
          | nil => rfl
          | cons y ys => rw [List.zip_cons_cons, List.map_cons, ih, List.length_cons, List.take_succ_cons]
      rw [hz, List.map_take]
    have hnd : (((s.pars.map (·.name)).zip l).map (·.1)).Nodup := by
      rw [hmap, List.map_take]; exact hn.sublist (List.take_sublist _ _)
    obtain ⟨h3, h4⟩ := setAll_spec hnd hs
    refine ⟨hle, h2, fun i p r hp hr => ?_, fun n hm => h4 n (by rw [hmap]; exact hm)⟩
    refine h3 p.name r.1 r.2 (List.mem_of_getElem? (i := i) ?_)
    rw [List.getElem?_zip_eq_some]
    exact ⟨by rw [List.getElem?_map, hp]; rfl, hr⟩

example : (setRanges (⟨[⟨c!"x", none⟩, ⟨c!"y", none⟩], {}, false⟩ : St ℚ) (.list [(.num 0, .num 1), (.none, .num 5)])).1.ranges =
    { names := [c!"x", c!"y"], lower := [(c!"x", 0)], upper := [(c!"x", 1), (c!"y", 5)] } := by decide +kernel

/-- **C267**: `setRanges` with another set of bounds replaces all ranges by these. -/
theorem bounds_spec (s : St K) (b : ParamBounds K) : (setRanges s (.bounds b)).2 = none ∧ (setRanges s (.bounds b)).1.needsUpdate = true ∧
    ∀ n, getLower (setRanges s (.bounds b)).1.ranges n = getLower b n ∧ getUpper (setRanges s (.bounds b)).1.ranges n = getUpper b n :=
  ⟨rfl, rfl, fun _ => ⟨rfl, rfl⟩⟩

example : (setRanges (⟨[], { names := [c!"x"], lower := [(c!"x", 1)] }, false⟩ : St ℚ) (.bounds {})).1.ranges = {} := by decide +kernel

/-- **C267**: an argument of another type is refused and nothing changes. -/
theorem other_spec (s : St K) : setRanges s .other = (s, some .valueError) := rfl

example : setRanges (⟨[], {}, true⟩ : St ℚ) .other = (⟨[], {}, true⟩, some .valueError) := other_spec _

theorem limitOne_other {ini : Str → Str} {b b' : ParamBounds K} {n : Str} (h : limitOne ini b n = (b', none)) :
    ∀ m, m ≠ n → getLower b' m = getLower b m ∧ getUpper b' m = getUpper b m := by
  unfold limitOne at h
  split at h
  · obtain ⟨_, _, _, _, _, _, ho⟩ := setRange_spec h; exact ho
  · injection h with h _; subst h; exact fun _ _ => ⟨rfl, rfl⟩

theorem initLimits_cons {ini : Str → Str} {b b' : ParamBounds K} {p : Par K} {ps qs : List (Par K)}
    (h : initLimits ini b (p :: ps) = (qs, b', none)) : ∃ b1 qs1, limitOne ini b p.name = (b1, none) ∧ initLimits ini b1 ps = (qs1, b', none) ∧
      qs = { p with lims := some (getLower b1 p.name, getUpper b1 p.name) } :: qs1 := by
  rw [initLimits] at h
  rcases hl : limitOne ini b p.name with ⟨b1, o⟩
  rw [hl] at h
  cases o with
  | some e => cases h
  | none =>
    rcases hr : initLimits ini b1 ps with ⟨qs1, b2, o2⟩
    dsimp only at h
    rw [hr] at h
    injection h with h1 h2
    injection h2 with h2 h3
    dsimp only at h1 h2 h3
    subst h1 h2 h3
    exact ⟨b1, qs1, rfl, hr, rfl⟩

theorem initLimits_other {ini : Str → Str} : ∀ {ps qs : List (Par K)} {b b' : ParamBounds K}, initLimits ini b ps = (qs, b', none) →
    ∀ n, n ∉ ps.map (·.name) → getLower b' n = getLower b n ∧ getUpper b' n = getUpper b n
  | [], qs, b, b', h, n, _ => by
    rw [initLimits] at h; injection h with _ h; injection h with h _; subst h; exact ⟨rfl, rfl⟩
  | p :: ps, qs, b, b', h, n, hn => by
    obtain ⟨b1, qs1, h1, h2, _⟩ := initLimits_cons h
    rw [List.map_cons, List.mem_cons, not_or] at hn
    obtain ⟨hl, hu⟩ := initLimits_other h2 n hn.2
    obtain ⟨hl', hu'⟩ := limitOne_other h1 n hn.1
    exact ⟨hl.trans hl', hu.trans hu'⟩

theorem initLimits_names {ini : Str → Str} : ∀ {ps qs : List (Par K)} {b b' : ParamBounds K}, initLimits ini b ps = (qs, b', none) →
    qs.map (·.name) = ps.map (·.name)
  | [], qs, b, b', h => by rw [initLimits] at h; injection h with h _; subst h; rfl
  | p :: ps, qs, b, b', h => by
    obtain ⟨b1, qs1, _, h2, rfl⟩ := initLimits_cons h
    rw [List.map_cons, List.map_cons, initLimits_names h2]

/-- the limits of each parameter afterwards: those of the ranges then, which are those of one step for it -/
theorem initLimits_spec {ini : Str → Str} : ∀ {ps qs : List (Par K)} {b b' : ParamBounds K}, (ps.map (·.name)).Nodup →
    initLimits ini b ps = (qs, b', none) → ∀ q ∈ qs, q.lims = some (getLower b' q.name, getUpper b' q.name) ∧
      ∃ b0 b1, getLower b0 q.name = getLower b q.name ∧ getUpper b0 q.name = getUpper b q.name ∧ limitOne ini b0 q.name = (b1, none) ∧
        getLower b1 q.name = getLower b' q.name ∧ getUpper b1 q.name = getUpper b' q.name
  | [], qs, b, b', _, h, q, hq => by rw [initLimits] at h; injection h with h _; subst h; simp at hq
  | p :: ps, qs, b, b', hn, h, q, hq => by
    obtain ⟨b1, qs1, h1, h2, rfl⟩ := initLimits_cons h
    rw [List.map_cons, List.nodup_cons] at hn
    rcases List.mem_cons.1 hq with rfl | hq
    · obtain ⟨hl, hu⟩ := initLimits_other h2 p.name hn.1
      exact ⟨by dsimp only; rw [hl, hu], b, b1, rfl, rfl, h1, hl.symm, hu.symm⟩
    · obtain ⟨ha, b0, b2, h3, h4, h5, h6, h7⟩ := initLimits_spec hn.2 h2 q hq
      have hne : q.name ≠ p.name := fun he => hn.1 (by
        rw [← he, ← initLimits_names h2]; exact List.mem_map.2 ⟨q, hq, rfl⟩)
      obtain ⟨hl', hu'⟩ := limitOne_other h1 q.name hne
      exact ⟨ha, b0, b2, h3.trans hl', h4.trans hu', h5, h6, h7⟩

theorem update_ok {ini : Str → Str} {s s' : St K} (h : update ini s = (s', none)) :
    initLimits ini s.ranges s.pars = (s'.pars, s'.ranges, none) ∧ s'.needsUpdate = false := by
  unfold update at h
  rcases hi : initLimits ini s.ranges s.pars with ⟨ps, b, o⟩
  rw [hi] at h
  cases o with
  | some e => cases h
  | none => injection h with h _; subst h; exact ⟨rfl, rfl⟩

theorem find_name {ps : List (Par K)} {n : Str} (h : n ∈ ps.map (·.name)) : ∃ q ∈ ps, q.name = n ∧ ps.find? (·.name == n) = some q := by
  cases hf : ps.find? (·.name == n) with
  | none =>
    obtain ⟨q, hq, rfl⟩ := List.mem_map.1 h
    have := List.find?_eq_none.1 hf q hq
    simp at this
  | some q => exact ⟨q, List.mem_of_find?_eq_some hf, by simpa using List.find?_some hf, rfl⟩

/-- **C267**: after the statistics are brought up to date, `getLower` and `getUpper` of every parameter of the chain give the limits in its range. -/
theorem update_shows {ini : Str → Str} {s s' : St K} (hn : (s.pars.map (·.name)).Nodup) (h : update ini s = (s', none)) {n : Str}
    (hm : n ∈ s.pars.map (·.name)) : lower s' n = getLower s'.ranges n ∧ upper s' n = getUpper s'.ranges n := by
  obtain ⟨h1, _⟩ := update_ok h
  obtain ⟨q, hq, hqn, hf⟩ := find_name (n := n) (by rw [initLimits_names h1]; exact hm)
  obtain ⟨hl, _⟩ := initLimits_spec hn h1 q hq
  unfold lower upper parLims
  rw [hf]
  dsimp only
  rw [hl, hqn]
  exact ⟨rfl, rfl⟩

example : lower (update (fun _ => []) (⟨[⟨c!"x", none⟩], { names := [c!"x"], lower := [(c!"x", 3)] }, true⟩ : St ℚ)).1 c!"x" = some 3 := by
  decide +kernel

/-- **C267**: the limits of a parameter are those that the settings give in its own line, or in the line for all if there is one; a side that they
leave open, and a line that is not two words, keep the range there was. -/
theorem update_limits {ini : Str → Str} {s s' : St K} (hn : (s.pars.map (·.name)).Nodup) (h : update ini s = (s', none)) {n : Str}
    (hm : n ∈ s.pars.map (·.name)) {line : Str}
    (hline : (ini c!"all_limits" ≠ [] ∧ line = ini c!"all_limits") ∨ (ini c!"all_limits" = [] ∧ line = ini (c!"limits[" ++ n ++ c!"]"))) :
    (∀ a b, splitWs line = [a, b] → ∃ x y, Means (.text a) x ∧ Means (.text b) y ∧ lower s' n = x.or (getLower s.ranges n) ∧
      upper s' n = y.or (getUpper s.ranges n)) ∧
    ((splitWs line).length ≠ 2 → lower s' n = getLower s.ranges n ∧ upper s' n = getUpper s.ranges n) := by
  obtain ⟨hl, hu⟩ := update_shows hn h hm
  obtain ⟨h1, _⟩ := update_ok h
  obtain ⟨q, hq, hqn, hf⟩ := find_name (n := n) (by rw [initLimits_names h1]; exact hm)
  obtain ⟨_, b0, b1, h2, h3, h4, h5, h6⟩ := initLimits_spec hn h1 q hq
  rw [hqn] at h2 h3 h4 h5 h6
  have hL : limitsLine ini n = line := by
    unfold limitsLine
    rcases hline with ⟨hne, rfl⟩ | ⟨he, rfl⟩
    · rw [if_pos hne]
    · rw [if_neg (fun hne => hne he)]
  rw [limitOne, hL] at h4
  constructor
  · intro a b hab
    rw [hab] at h4
    obtain ⟨x, y, hx, hy, hx2, hy2, _⟩ := setRange_spec h4
    exact ⟨x, y, hx, hy, by rw [hl, ← h5, hx2, h2], by rw [hu, ← h6, hy2, h3]⟩
  · intro hlen
    have hb : b1 = b0 := by
      split at h4
      · rename_i he; rw [he] at hlen; exact absurd rfl hlen
      · injection h4 with h4 _; exact h4.symm
    subst hb
    exact ⟨by rw [hl, ← h5, h2], by rw [hu, ← h6, h3]⟩

example : upper (update (fun k => if k = c!"limits[x]" then c!"N 7" else []) (⟨[⟨c!"x", none⟩], {}, true⟩ : St ℚ)).1 c!"x" = some 7 := by
  decide +kernel

/-- **C267**: there are no limits for a name that is not a parameter of the chain. -/
theorem absent_none {s : St K} {n : Str} (h : n ∉ s.pars.map (·.name)) : lower s n = none ∧ upper s n = none := by
  have hf : s.pars.find? (·.name == n) = none := by
    rw [List.find?_eq_none]
    intro q hq he
    exact h (List.mem_map.2 ⟨q, hq, by simpa using he⟩)
  unfold lower upper parLims
  rw [hf]
  exact ⟨rfl, rfl⟩

example : lower (⟨[⟨c!"x", some (some 1, none)⟩], {}, true⟩ : St ℚ) c!"y" = none := by decide +kernel

omit [Field K] [LinearOrder K] [IsStrictOrderedRing K] [FloorRing K] in
/-- **C267**: ranges are read from the `.ranges` file of the chain if there is one, otherwise from the file of cobaya, otherwise from nowhere;
samples without a root read nothing. -/
theorem rangesFile_spec (isfile : Str → Bool) (cobaya : Str → Option Str) (r : Str) (hr : r ≠ []) :
    (isfile (r ++ c!".ranges") = true → rangesFile isfile cobaya (some r) = some (r ++ c!".ranges")) ∧
    (isfile (r ++ c!".ranges") = false → rangesFile isfile cobaya (some r) = cobaya r) ∧
    rangesFile isfile cobaya none = none ∧ rangesFile isfile cobaya (some []) = none := by
  refine ⟨fun h => ?_, fun h => ?_, rfl, rfl⟩
  · unfold rangesFile; dsimp only; rw [if_neg hr, if_pos h]
  · unfold rangesFile; dsimp only; rw [if_neg hr, if_neg (by rw [h]; simp)]

example : rangesFile (fun _ => false) (fun r => some (r ++ c!".updated.yaml")) (some c!"a") = some c!"a.updated.yaml" := by decide

/-! ## C268 -/

/-- **C268 fails**: a call of `setRanges` that is refused has changed ranges and has not marked the statistics as out of date (mcsamples.py:295-305):
the lower limit of the range refused is stored, and of a list with one range too many all the others are. -/
theorem refused_fails : ∃ s : St ℚ,
    (setRanges s (.dict [(c!"x", .num 1, .text c!"big")])).2 = some .valueError ∧
    getLower s.ranges c!"x" = none ∧ getLower (setRanges s (.dict [(c!"x", .num 1, .text c!"big")])).1.ranges c!"x" = some 1 ∧
    (setRanges s (.dict [(c!"x", .num 1, .text c!"big")])).1.needsUpdate = false ∧
    (setRanges s (.list [(.num 1, .num 2), (.num 3, .num 4)])).2 = some .indexError ∧
    getUpper (setRanges s (.list [(.num 1, .num 2), (.num 3, .num 4)])).1.ranges c!"x" = some 2 ∧
    (setRanges s (.list [(.num 1, .num 2), (.num 3, .num 4)])).1.needsUpdate = false :=
  ⟨⟨[⟨c!"x", some (none, none)⟩], {}, false⟩, by decide +kernel⟩

/-- **C268 fails**: `getUpper` right after `setRanges` gives the limit from before, and `None` if nothing was computed yet (mcsamples.py:305,
2078-2080): the attributes of the parameter are set only when the statistics are computed. -/
theorem at_once_fails : ∃ s : St ℚ, s.needsUpdate = false ∧ upper s c!"x" = some 9 ∧
    (setRanges s (.dict [(c!"x", .num 0, .num 1)])).2 = none ∧ getUpper (setRanges s (.dict [(c!"x", .num 0, .num 1)])).1.ranges c!"x" = some 1 ∧
    upper (setRanges s (.dict [(c!"x", .num 0, .num 1)])).1 c!"x" = some 9 :=
  ⟨⟨[⟨c!"x", some (none, some 9)⟩], { names := [c!"x"], upper := [(c!"x", 9)] }, false⟩, by decide +kernel⟩

/-- **C268 fails**: a line of limits that is not two words, such as `0,1`, is left out without an error (mcsamples.py:417-419). -/
theorem words_fails : ∃ s : St ℚ, (update (fun k => if k = c!"limits[x]" then c!"0,1" else []) s).2 = none ∧
    upper (update (fun k => if k = c!"limits[x]" then c!"0,1" else []) s).1 c!"x" = none :=
  ⟨⟨[⟨c!"x", none⟩], {}, true⟩, by decide +kernel⟩

/-- **C268 fails**: limits of the settings stay when the settings no longer give them (mcsamples.py:419): they are written into the ranges of the
chain. -/
theorem removed_fails : ∃ s : St ℚ, getUpper s.ranges c!"x" = none ∧
    upper (update (fun _ => []) (update (fun k => if k = c!"limits[x]" then c!"0 1" else []) s).1).1 c!"x" = some 1 :=
  ⟨⟨[⟨c!"x", none⟩], {}, true⟩, by decide +kernel⟩

/-- **C268**, the part that holds: a call that is not refused takes effect for every parameter named in it as soon as the statistics are brought up
to date without limits in the settings. -/
theorem set_update_partial {s s1 s2 : St K} {d : List (Str × Lim K × Lim K)} (hn : (s.pars.map (·.name)).Nodup) (hd : (d.map (·.1)).Nodup)
    (h : setRanges s (.dict d) = (s1, none)) (hu : update (fun _ => []) s1 = (s2, none)) {n : Str} {a b : K}
    (hm : n ∈ s.pars.map (·.name)) (he : (n, Lim.num a, Lim.num b) ∈ d) : lower s2 n = some a ∧ upper s2 n = some b := by
  obtain ⟨h1, _, hp⟩ := setRanges_ok h
  obtain ⟨x, y, hx, hy, hl, hr⟩ := (setAll_spec hd h1).1 n _ _ he
  cases hx
  cases hy
  have h3 := (update_limits (by rw [hp]; exact hn) hu (by rw [hp]; exact hm) (line := []) (Or.inr ⟨rfl, rfl⟩)).2 (by decide)
  rw [h3.1, h3.2, hl, hr]
  exact ⟨rfl, rfl⟩

example : upper (update (fun _ => []) (setRanges (⟨[⟨c!"x", none⟩], {}, false⟩ : St ℚ) (.dict [(c!"x", .num 0, .num 1)])).1).1 c!"x" = some 1 := by
  decide +kernel

end Verif.SampleRanges
