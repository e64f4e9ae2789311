import Verif.Model.Analyser
import Verif.Props.DensityInt

/-!
# The samples and densities cached by the plotter
-/

namespace Verif.Analyser
set_option linter.unusedSectionVars false
set_option linter.unusedSimpArgs false
open Verif.Py Verif.ParamNames

variable {S D G U : Type} [DecidableEq S]

/-! ## Specification -/

/-- the samples that answer for a root -/
def cur (st : St S D G U) : Root S → Option S
  | .name r => st.samples.get? r
  | .obj s => some s
  | .other => none

/-- the call neither forgets nor reloads the samples of the name `r` -/
def Keeps (r : Str) : Op S → Prop
  | .samples (.name r') _ cache _ => cache = true ∨ r' ≠ r
  | .remove root => root ≠ .name r
  | .reset _ _ => False
  | _ => True

/-- the call does not ask for samples to be loaded again -/
def Cached : Op S → Prop
  | .samples _ _ cache _ => cache = true
  | _ => True

/-- the call draws no normalised curve -/
def Unnormed : Op S → Prop
  | .curve _ _ _ normalized => normalized = false
  | _ => True

/-- no samples are loaded and nothing is cached -/
def Fresh (st : St S D G U) : Prop := st.samples = [] ∧ st.d1 = [] ∧ st.d2 = [] ∧ st.singles = []

/-! ## The samples -/

theorem loadRoot_ok {w : World S D G U} {st st' : St S D G U} {r : Str} {f : Option Str} {c : Settings} {s : S}
    (h : loadRoot w st r f c = .ok (s, st')) :
    st' = { st with samples := st.samples.set r s, clock := st.clock + 1 } := by
  unfold loadRoot at h
  split at h
  · simp at h
  · split at h
    · simp at h
    · simp only [Except.ok.injEq, Prod.mk.injEq] at h
      obtain ⟨rfl, rfl⟩ := h
      rfl

/-- what a cached request leaves alone -/
structure Extends (st st' : St S D G U) : Prop where
  cur : ∀ root s, Analyser.cur st root = some s → Analyser.cur st' root = some s
  d1 : st'.d1 = st.d1
  d2 : st'.d2 = st.d2
  singles : st'.singles = st.singles

theorem Extends.refl (st : St S D G U) : Extends st st := ⟨fun _ _ h => h, rfl, rfl, rfl⟩

theorem cached_ok {w : World S D G U} {st st' : St S D G U} {root : Root S} {f : Option Str} {c : Settings} {s : S}
    (h : samplesForRoot w st root f true c = .ok (s, st')) : cur st' root = some s ∧ Extends st st' := by
  unfold samplesForRoot at h
  cases root with
  | other => simp at h
  | obj t =>
    simp only [Except.ok.injEq, Prod.mk.injEq] at h
    obtain ⟨rfl, rfl⟩ := h
    exact ⟨rfl, Extends.refl _⟩
  | name r =>
    cases hg : st.samples.get? r with
    | some t =>
      simp only [hg, if_true, Except.ok.injEq, Prod.mk.injEq] at h
      obtain ⟨rfl, rfl⟩ := h
      exact ⟨hg, Extends.refl _⟩
    | none =>
      simp only [hg] at h
      rw [loadRoot_ok h]
      refine ⟨Dict.get?_set_self _ _ _, ?_, rfl, rfl, rfl⟩
      intro root' s' h'
      cases root' with
      | other => exact h'
      | obj t => exact h'
      | name r' =>
        show Dict.get? (Dict.set st.samples r s) r' = some s'
        have h2 : st.samples.get? r' = some s' := h'
        rw [Dict.get?_set_of_ne _ _ (fun e => by rw [e, hg] at h2; simp at h2)]
        exact h2

/-- a name that is already loaded is answered from memory -/
theorem cached_hit (w : World S D G U) (st : St S D G U) (r : Str) (f : Option Str) (c : Settings) (s : S)
    (h : st.samples.get? r = some s) : samplesForRoot w st (.name r) f true c = .ok (s, st) := by
  simp [samplesForRoot, h]

/-- any request leaves the samples of other names alone -/
theorem other_kept {w : World S D G U} {st st' : St S D G U} {root : Root S} {f : Option Str} {cache : Bool} {c : Settings} {s : S} {r : Str}
    (h : samplesForRoot w st root f cache c = .ok (s, st')) (hr : root ≠ .name r ∨ cache = true) {t : S}
    (ht : st.samples.get? r = some t) : st'.samples.get? r = some t := by
  cases cache with
  | true => exact (cached_ok h).2.cur (.name r) t ht
  | false =>
    have hr : root ≠ .name r := by simpa using hr
    cases root with
    | other => simp [samplesForRoot] at h
    | obj t =>
      simp only [samplesForRoot, Except.ok.injEq, Prod.mk.injEq] at h
      obtain ⟨_, rfl⟩ := h
      exact ht
    | name q =>
      have hq : r ≠ q := fun e => hr (by rw [e])
      have : loadRoot w st q f c = .ok (s, st') := by
        unfold samplesForRoot at h
        cases hg : st.samples.get? q <;> simpa [hg] using h
      rw [loadRoot_ok this]
      exact (Dict.get?_set_of_ne _ _ hq).trans ht

/-- the samples part of the state after a density request -/
theorem getDensity_state {w : World S D G U} {st st' : St S D G U} {root : Root S} {n : Str} {l : Bool} {od : Option D}
    (h : getDensity w st root n l = .ok (od, st')) :
    ∃ s st1, samplesForRoot w st root none true [] = .ok (s, st1) ∧ st'.samples = st1.samples ∧ st'.d2 = st1.d2 ∧ st'.singles = st1.singles ∧
      (let rd := ((st1.d1.get? root).getD []).erase (n, !l)
       (∃ d, rd.get? (n, l) = some d ∧ od = some d ∧ st'.d1 = st1.d1.set root rd) ∨
       (rd.get? (n, l) = none ∧ w.density1 s n l = none ∧ od = none ∧ st'.d1 = st1.d1.set root rd) ∨
       (∃ d, rd.get? (n, l) = none ∧ w.density1 s n l = some d ∧ od = some d ∧ st'.d1 = st1.d1.set root (rd.set (n, l) d))) := by
  unfold getDensity at h
  cases hs : samplesForRoot w st root none true [] with
  | error e => rw [hs] at h; simp [bind, Except.bind] at h
  | ok p =>
    obtain ⟨s, st1⟩ := p
    rw [hs] at h
    simp only [bind, Except.bind] at h
    refine ⟨s, st1, rfl, ?_⟩
    split at h
    · rename_i d hd
      simp only [Except.ok.injEq, Prod.mk.injEq] at h
      obtain ⟨rfl, rfl⟩ := h
      exact ⟨rfl, rfl, rfl, Or.inl ⟨d, hd, rfl, rfl⟩⟩
    · rename_i hd
      split at h
      · rename_i hw
        simp only [Except.ok.injEq, Prod.mk.injEq] at h
        obtain ⟨rfl, rfl⟩ := h
        exact ⟨rfl, rfl, rfl, Or.inr (Or.inl ⟨hd, hw, rfl, rfl⟩)⟩
      · rename_i d hw
        simp only [Except.ok.injEq, Prod.mk.injEq] at h
        obtain ⟨rfl, rfl⟩ := h
        exact ⟨rfl, rfl, rfl, Or.inr (Or.inr ⟨d, hd, hw, rfl, rfl⟩)⟩

theorem add1d_state {w : World S D G U} {st st' : St S D G U} {root : Root S} {n : Str} {l nz : Bool} {sett : Bool} {od : Option D}
    (h : add1d w st root n l (some nz) sett = .ok (od, st')) :
    ∃ od1 st1, getDensity w st root n l = .ok (od1, st1) ∧
      ((od1 = none ∧ od = none ∧ st' = st1) ∨
       (∃ d, od1 = some d ∧ nz = true ∧ od = some (w.norm d) ∧ st' = putDensity st1 root n l (w.norm d)) ∨
       (∃ d, od1 = some d ∧ nz = false ∧ od = some d ∧ st' = st1)) := by
  unfold add1d at h
  cases hs : getDensity w st root n l with
  | error e => rw [hs] at h; simp [bind, Except.bind] at h
  | ok p =>
    obtain ⟨od1, st1⟩ := p
    rw [hs] at h
    simp only [bind, Except.bind, Option.getD_some] at h
    refine ⟨od1, st1, rfl, ?_⟩
    cases od1 with
    | none =>
      simp only [Except.ok.injEq, Prod.mk.injEq] at h
      obtain ⟨rfl, rfl⟩ := h
      exact Or.inl ⟨rfl, rfl, rfl⟩
    | some d =>
      cases nz with
      | true =>
        simp only [if_true, Except.ok.injEq, Prod.mk.injEq] at h
        obtain ⟨rfl, rfl⟩ := h
        exact Or.inr (Or.inl ⟨d, rfl, rfl, rfl, rfl⟩)
      | false =>
        simp only [Bool.false_eq_true, if_false, Except.ok.injEq, Prod.mk.injEq] at h
        obtain ⟨rfl, rfl⟩ := h
        exact Or.inr (Or.inr ⟨d, rfl, rfl, rfl, rfl⟩)

theorem grid_state {w : World S D G U} {st st' : St S D G U} {root : Root S} {p1 p2 : Str} {c : Nat} {l : Bool} {og : Option G}
    (h : getDensityGrid w st root p1 p2 c l = .ok (og, st')) :
    (∃ g, ((st.d2.get? root).getD []).get? (p1, p2, l, c) = some g ∧ og = some g ∧ st' = st) ∨
    (∃ s st1, ((st.d2.get? root).getD []).get? (p1, p2, l, c) = none ∧ samplesForRoot w st root none true [] = .ok (s, st1) ∧ og = w.density2 s p1 p2 l c ∧
      ((og = none ∧ st' = st1) ∨
       (∃ g, og = some g ∧ st' = { st1 with d2 := st1.d2.set root (((st.d2.get? root).getD []).set (p1, p2, l, c) g) }))) := by
  unfold getDensityGrid at h
  dsimp only at h
  split at h
  · rename_i g hg
    simp only [Except.ok.injEq, Prod.mk.injEq] at h
    obtain ⟨rfl, rfl⟩ := h
    exact Or.inl ⟨g, hg, rfl, rfl⟩
  · rename_i hg
    cases hs : samplesForRoot w st root none true [] with
    | error e => rw [hs] at h; simp [bind, Except.bind] at h
    | ok p =>
      obtain ⟨s, st1⟩ := p
      rw [hs] at h
      simp only [bind, Except.bind] at h
      refine Or.inr ⟨s, st1, hg, rfl, ?_⟩
      split at h
      · rename_i hw
        simp only [Except.ok.injEq, Prod.mk.injEq] at h
        obtain ⟨rfl, rfl⟩ := h
        exact ⟨hw.symm, Or.inl ⟨rfl, rfl⟩⟩
      · rename_i g hw
        simp only [Except.ok.injEq, Prod.mk.injEq] at h
        obtain ⟨rfl, rfl⟩ := h
        exact ⟨hw.symm, Or.inr ⟨g, rfl, rfl⟩⟩

theorem single_state {w : World S D G U} {st st' : St S D G U} {root : Root S} {u : U} (h : loadSingle w st root = .ok (u, st')) :
    (st.singles.get? root = some u ∧ st' = st) ∨
    (∃ s st1, st.singles.get? root = none ∧ samplesForRoot w st root none true [] = .ok (s, st1) ∧ u = w.single s ∧
      st' = { st1 with singles := st1.singles.set root (w.single s) }) := by
  unfold loadSingle at h
  split at h
  · rename_i g hg
    simp only [Except.ok.injEq, Prod.mk.injEq] at h
    obtain ⟨rfl, rfl⟩ := h
    exact Or.inl ⟨hg, rfl⟩
  · rename_i hg
    cases hs : samplesForRoot w st root none true [] with
    | error e => rw [hs] at h; simp [bind, Except.bind] at h
    | ok p =>
      obtain ⟨s, st1⟩ := p
      rw [hs] at h
      simp only [bind, Except.bind, Except.ok.injEq, Prod.mk.injEq] at h
      obtain ⟨rfl, rfl⟩ := h
      exact Or.inr ⟨s, st1, hg, rfl, rfl, rfl⟩

theorem names_state {w : World S D G U} {st st' : St S D G U} {root : Root S} {l : Option (List Info)} {ps : List Info}
    (h : paramsForRoot w st root l = .ok (ps, st')) :
    ∃ s st1, samplesForRoot w st root none true [] = .ok (s, st1) ∧ st'.samples = st1.samples ∧ st'.d1 = st1.d1 ∧ st'.d2 = st1.d2 ∧
      st'.singles = st1.singles := by
  unfold paramsForRoot at h
  cases hs : samplesForRoot w st root none true [] with
  | error e => rw [hs] at h; simp [bind, Except.bind] at h
  | ok p =>
    obtain ⟨s, st1⟩ := p
    rw [hs] at h
    simp only [bind, Except.bind] at h
    refine ⟨s, st1, rfl, ?_⟩
    cases l with
    | none =>
      simp only [Except.ok.injEq, Prod.mk.injEq] at h
      obtain ⟨rfl, rfl⟩ := h
      exact ⟨rfl, rfl, rfl, rfl⟩
    | some l =>
      simp only [Except.ok.injEq, Prod.mk.injEq] at h
      obtain ⟨rfl, rfl⟩ := h
      exact ⟨rfl, rfl, rfl, rfl⟩

theorem step_keeps (w : World S D G U) (defaults : Settings) (st : St S D G U) (r : Str) (s : S) (op : Op S) (hk : Keeps r op)
    (h : st.samples.get? r = some s) : (step w defaults st op).samples.get? r = some s := by
  have ext : ∀ {root : Root S} {t : S} {st1 : St S D G U}, samplesForRoot w st root none true [] = .ok (t, st1) → st1.samples.get? r = some s :=
    fun hs => (cached_ok hs).2.cur (.name r) s h
  cases op with
  | samples root f cache c =>
    simp only [step]
    cases hs : samplesForRoot w st root f cache c with
    | error e => exact h
    | ok p =>
      refine other_kept (st' := p.2) (s := p.1) hs ?_ h
      cases root with
      | name r' =>
        rcases hk with h1 | h1
        · exact Or.inr h1
        · exact Or.inl (by simpa using h1)
      | obj t => exact Or.inl (by simp)
      | other => exact Or.inl (by simp)
  | addRoot f =>
    simp only [step]
    cases hs : addRoot w st f with
    | error e => exact h
    | ok p => exact (cached_ok hs).2.cur (.name r) s h
  | remove root =>
    have hk : root ≠ .name r := hk
    cases root with
    | name q =>
      show Dict.get? (Dict.erase st.samples q) r = some s
      rw [Dict.get?_erase, if_neg (fun e => hk (by rw [e])), h]
    | obj t => exact h
    | other => exact h
  | reset g p => exact absurd hk id
  | density root n l =>
    simp only [step]
    cases hs : getDensity w st root n l with
    | error e => exact h
    | ok p =>
      obtain ⟨t, st1, h1, h2, _⟩ := getDensity_state (st' := p.2) (od := p.1) hs
      show p.2.samples.get? r = some s
      rw [h2]; exact ext h1
  | grid root p1 p2 c l =>
    simp only [step]
    cases hs : getDensityGrid w st root p1 p2 c l with
    | error e => exact h
    | ok p =>
      show p.2.samples.get? r = some s
      rcases grid_state (st' := p.2) (og := p.1) hs with ⟨_, _, _, h1⟩ | ⟨t, st1, _, h1, _, h2⟩
      · rw [h1]; exact h
      · rcases h2 with ⟨_, h2⟩ | ⟨g, _, h2⟩ <;> rw [h2] <;> exact (ext h1 : st1.samples.get? r = some s)
  | single root =>
    simp only [step]
    cases hs : loadSingle w st root with
    | error e => exact h
    | ok p =>
      show p.2.samples.get? r = some s
      rcases single_state (st' := p.2) (u := p.1) hs with ⟨_, h1⟩ | ⟨t, st1, _, h1, _, h2⟩
      · rw [h1]; exact h
      · rw [h2]; exact (ext h1 : st1.samples.get? r = some s)
  | curve root n l nz =>
    simp only [step]
    cases hs : add1d w st root n l (some nz) false with
    | error e => exact h
    | ok p =>
      show p.2.samples.get? r = some s
      obtain ⟨od1, st1, h1, h2⟩ := add1d_state (st' := p.2) (od := p.1) hs
      obtain ⟨t, st2, h3, h4, _⟩ := getDensity_state h1
      have h5 : st1.samples.get? r = some s := by rw [h4]; exact ext h3
      rcases h2 with ⟨_, _, h2⟩ | ⟨d, _, _, _, h2⟩ | ⟨d, _, _, _, h2⟩ <;> rw [h2] <;> exact h5
  | names root l =>
    simp only [step]
    cases hs : paramsForRoot w st root l with
    | error e => exact h
    | ok p =>
      show p.2.samples.get? r = some s
      obtain ⟨t, st1, h1, h2, _⟩ := names_state (st' := p.2) (ps := p.1) hs
      rw [h2]; exact ext h1

/-- **Samples are loaded once.**  Once the samples of a name are loaded, every later request for that name gives the same object,
whatever calls come in between, as long as the name is not removed, the analyser not reset and the name not explicitly reloaded. -/
theorem samples_kept (w : World S D G U) (defaults : Settings) (r : Str) (s : S) (ops : List (Op S)) (hk : ∀ op ∈ ops, Keeps r op)
    (st : St S D G U) (h : st.samples.get? r = some s) (f : Option Str) (c : Settings) :
    samplesForRoot w (run w defaults st ops) (.name r) f true c = .ok (s, run w defaults st ops) := by
  refine cached_hit _ _ _ _ _ _ ?_
  unfold run
  induction ops generalizing st with
  | nil => exact h
  | cons op ops ih =>
    rw [List.foldl_cons]
    exact ih (fun o ho => hk o (by simp [ho])) _ (step_keeps w defaults st r s op (hk op (by simp)) h)

/-- **A removed name is loaded again** when it is next asked for: at the new time, with the settings now in force. -/
theorem removed_reloads (w : World S D G U) (st : St S D G U) (r : Str) (f : Option Str) (c : Settings) :
    samplesForRoot w (removeRoot st (.name r)) (.name r) f true c = loadRoot w (removeRoot st (.name r)) r f c := by
  have : (removeRoot st (.name r)).samples.get? r = none := by
    show Dict.get? (Dict.erase st.samples r) r = none
    rw [Dict.get?_erase, if_pos rfl]
  simp [samplesForRoot, this]

/-! ## The densities -/

/-- every cached result belongs to the samples that answer for its root; `rel` is the allowed difference of a cached 1D density from
the freshly computed one -/
structure Inv (w : World S D G U) (rel : D → D → Prop) (st : St S D G U) : Prop where
  d1 : ∀ root n l d, ((st.d1.get? root).getD []).get? (n, l) = some d → ∃ s d', cur st root = some s ∧ w.density1 s n l = some d' ∧ rel d' d
  d2 : ∀ root k g, ((st.d2.get? root).getD []).get? k = some g → ∃ s, cur st root = some s ∧ w.density2 s k.1 k.2.1 k.2.2.1 k.2.2.2 = some g
  singles : ∀ root u, st.singles.get? root = some u → ∃ s, cur st root = some s ∧ u = w.single s

theorem inv_fresh (w : World S D G U) (rel : D → D → Prop) {st : St S D G U} (h : st.d1 = [] ∧ st.d2 = [] ∧ st.singles = []) : Inv w rel st := by
  obtain ⟨h1, h2, h3⟩ := h
  refine ⟨?_, ?_, ?_⟩
  · intro root n l d hd; rw [h1] at hd; simp at hd
  · intro root k g hd; rw [h2] at hd; simp at hd
  · intro root u hd; rw [h3] at hd; simp at hd

theorem inv_ext {w : World S D G U} {rel : D → D → Prop} {st st' : St S D G U} (hi : Inv w rel st) (he : Extends st st') : Inv w rel st' := by
  refine ⟨?_, ?_, ?_⟩
  · intro root n l d hd
    rw [he.d1] at hd
    obtain ⟨s, d', h1, h2⟩ := hi.d1 root n l d hd
    exact ⟨s, d', he.cur _ _ h1, h2⟩
  · intro root k g hd
    rw [he.d2] at hd
    obtain ⟨s, h1, h2⟩ := hi.d2 root k g hd
    exact ⟨s, he.cur _ _ h1, h2⟩
  · intro root u hd
    rw [he.singles] at hd
    obtain ⟨s, h1, h2⟩ := hi.singles root u hd
    exact ⟨s, he.cur _ _ h1, h2⟩

theorem cur_congr {st st' : St S D G U} (h : st'.samples = st.samples) (root : Root S) : cur st' root = cur st root := by
  cases root <;> simp [cur, h]

/-- one root's 1D densities replaced by ones that are right for it -/
theorem inv_set1 {w : World S D G U} {rel : D → D → Prop} {st st' : St S D G U} (hi : Inv w rel st) (root : Root S) (rd : Dict (Str × Bool) D)
    (hs : st'.samples = st.samples) (h1 : st'.d1 = st.d1.set root rd) (h2 : st'.d2 = st.d2) (h3 : st'.singles = st.singles)
    (hr : ∀ n l d, rd.get? (n, l) = some d → ∃ s d', cur st root = some s ∧ w.density1 s n l = some d' ∧ rel d' d) : Inv w rel st' := by
  refine ⟨?_, ?_, ?_⟩
  · intro root' n l d hd
    rw [h1, Dict.get?_set] at hd
    rw [cur_congr hs]
    by_cases e : root' = root
    · subst e
      rw [if_pos rfl] at hd
      exact hr n l d hd
    · rw [if_neg e] at hd
      exact hi.d1 root' n l d hd
  · intro root' k g hd
    rw [h2] at hd; rw [cur_congr hs]; exact hi.d2 root' k g hd
  · intro root' u hd
    rw [h3] at hd; rw [cur_congr hs]; exact hi.singles root' u hd

theorem inv_erase {w : World S D G U} {rel : D → D → Prop} {st : St S D G U} (hi : Inv w rel st) (root : Root S) (k : Str × Bool) :
    ∀ n l d, (((st.d1.get? root).getD []).erase k).get? (n, l) = some d → ∃ s d', cur st root = some s ∧ w.density1 s n l = some d' ∧ rel d' d := by
  intro n l d hd
  rw [Dict.get?_erase] at hd
  split at hd
  · simp at hd
  · exact hi.d1 root n l d hd

/-- the density request: right answer, invariant kept -/
theorem getDensity_inv {w : World S D G U} {rel : D → D → Prop} (hrefl : ∀ d, rel d d) {st st' : St S D G U} (hi : Inv w rel st) {root : Root S}
    {n : Str} {l : Bool} {od : Option D} (h : getDensity w st root n l = .ok (od, st')) :
    Inv w rel st' ∧ ∃ s, cur st' root = some s ∧ ((od = none ∧ w.density1 s n l = none) ∨ ∃ d d', od = some d ∧ w.density1 s n l = some d' ∧ rel d' d) := by
  obtain ⟨s, st1, hs, hsm, hd2, hsi, hc⟩ := getDensity_state h
  obtain ⟨hcur, hext⟩ := cached_ok hs
  have hi1 := inv_ext hi hext
  have hcur' : cur st' root = some s := by rw [cur_congr hsm]; exact hcur
  have her := inv_erase hi1 root (n, !l)
  rcases hc with ⟨d, hd, hod, hst⟩ | ⟨hd, hw, hod, hst⟩ | ⟨d, hd, hw, hod, hst⟩
  · refine ⟨inv_set1 hi1 root _ hsm hst hd2 hsi her, s, hcur', Or.inr ?_⟩
    obtain ⟨s2, d', h1, h2, h3⟩ := her n l d hd
    rw [hcur] at h1
    cases h1
    exact ⟨d, d', hod, h2, h3⟩
  · exact ⟨inv_set1 hi1 root _ hsm hst hd2 hsi her, s, hcur', Or.inl ⟨hod, hw⟩⟩
  · refine ⟨inv_set1 hi1 root _ hsm hst hd2 hsi ?_, s, hcur', Or.inr ⟨d, d, hod, hw, hrefl d⟩⟩
    intro n2 l2 d2 h2
    rw [Dict.get?_set] at h2
    split at h2
    · rename_i e
      cases h2
      simp only [Prod.mk.injEq] at e
      obtain ⟨rfl, rfl⟩ := e
      exact ⟨s, d, hcur, hw, hrefl d⟩
    · exact her n2 l2 d2 h2

/-- drawing a curve: invariant kept -/
theorem add1d_inv {w : World S D G U} {rel : D → D → Prop} (hrefl : ∀ d, rel d d) {nz : Bool} (hn : nz = true → ∀ d' d, rel d' d → rel d' (w.norm d))
    {st st' : St S D G U} (hi : Inv w rel st) {root : Root S} {n : Str} {l : Bool} {sett : Bool} {od : Option D}
    (h : add1d w st root n l (some nz) sett = .ok (od, st')) :
    Inv w rel st' ∧ ∃ s, cur st' root = some s ∧ ((od = none ∧ w.density1 s n l = none) ∨
      ∃ d d', od = some (if nz then w.norm d else d) ∧ w.density1 s n l = some d' ∧ rel d' d) := by
  obtain ⟨od1, st1, h1, h2⟩ := add1d_state h
  obtain ⟨hi1, s, hcur, hd⟩ := getDensity_inv hrefl hi h1
  rcases h2 with ⟨ho, hod, rfl⟩ | ⟨d, ho, hz, hod, rfl⟩ | ⟨d, ho, hz, hod, rfl⟩
  · subst ho
    rcases hd with ⟨_, hd⟩ | ⟨d, d', h3, _⟩
    · exact ⟨hi1, s, hcur, Or.inl ⟨hod, hd⟩⟩
    · simp at h3
  · subst ho
    rcases hd with ⟨h3, _⟩ | ⟨d2, d', h3, h4, h5⟩
    · simp at h3
    · cases h3
      refine ⟨?_, s, hcur, Or.inr ⟨d, d', by rw [hod, hz]; rfl, h4, h5⟩⟩
      refine inv_set1 hi1 root _ rfl rfl rfl rfl ?_
      intro n2 l2 d2 h6
      rw [Dict.get?_set] at h6
      split at h6
      · rename_i e
        cases h6
        simp only [Prod.mk.injEq] at e
        obtain ⟨rfl, rfl⟩ := e
        exact ⟨s, d', hcur, h4, hn hz d' d h5⟩
      · exact hi1.d1 root n2 l2 d2 h6
  · subst ho
    rcases hd with ⟨h3, _⟩ | ⟨d2, d', h3, h4, h5⟩
    · simp at h3
    · cases h3
      exact ⟨hi1, s, hcur, Or.inr ⟨d, d', by rw [hod, hz]; rfl, h4, h5⟩⟩

theorem grid_inv {w : World S D G U} {rel : D → D → Prop} {st st' : St S D G U} (hi : Inv w rel st) {root : Root S} {p1 p2 : Str} {c : Nat} {l : Bool}
    {og : Option G} (h : getDensityGrid w st root p1 p2 c l = .ok (og, st')) :
    Inv w rel st' ∧ ∃ s, cur st' root = some s ∧ og = w.density2 s p1 p2 l c := by
  rcases grid_state h with ⟨g, hg, ho, rfl⟩ | ⟨s, st1, hg, hs, ho, h2⟩
  · obtain ⟨s, h1, h2⟩ := hi.d2 root _ g hg
    exact ⟨hi, s, h1, by rw [ho, h2]⟩
  · obtain ⟨hcur, hext⟩ := cached_ok hs
    have hi1 := inv_ext hi hext
    rcases h2 with ⟨_, rfl⟩ | ⟨g, hg2, rfl⟩
    · exact ⟨hi1, s, hcur, ho⟩
    · refine ⟨⟨hi1.d1, ?_, hi1.singles⟩, s, hcur, ho⟩
      intro root' k g' hd0
      have hd : ((Dict.get? (Dict.set st1.d2 root (((st.d2.get? root).getD []).set (p1, p2, l, c) g)) root').getD []).get? k = some g' := hd0
      clear hd0
      rw [Dict.get?_set] at hd
      by_cases e : root' = root
      · subst e
        rw [if_pos rfl, Option.getD_some, Dict.get?_set] at hd
        split at hd
        · rename_i e
          subst e
          have hgg : g = g' := by simpa using hd
          rw [← hgg]
          exact ⟨s, hcur, by rw [← ho, hg2]⟩
        · rw [← hext.d2] at hd
          exact hi1.d2 root' k g' hd
      · rw [if_neg e] at hd
        exact hi1.d2 root' k g' hd

theorem single_inv {w : World S D G U} {rel : D → D → Prop} {st st' : St S D G U} (hi : Inv w rel st) {root : Root S} {u : U}
    (h : loadSingle w st root = .ok (u, st')) : Inv w rel st' ∧ ∃ s, cur st' root = some s ∧ u = w.single s := by
  rcases single_state h with ⟨hu, rfl⟩ | ⟨s, st1, hu, hs, ho, rfl⟩
  · obtain ⟨s, h1, h2⟩ := hi.singles root u hu
    exact ⟨hi, s, h1, h2⟩
  · obtain ⟨hcur, hext⟩ := cached_ok hs
    have hi1 := inv_ext hi hext
    refine ⟨⟨hi1.d1, hi1.d2, ?_⟩, s, hcur, ho⟩
    intro root' u' hd0
    have hd : Dict.get? (Dict.set st1.singles root (w.single s)) root' = some u' := hd0
    clear hd0
    rw [Dict.get?_set] at hd
    split at hd
    · rename_i e
      subst e
      have hgg : w.single s = u' := by simpa using hd
      exact ⟨s, hcur, hgg.symm⟩
    · exact hi1.singles root' u' hd

theorem remove_inv {w : World S D G U} {rel : D → D → Prop} {st : St S D G U} (hi : Inv w rel st) (root : Root S) : Inv w rel (removeRoot st root) := by
  have hcur : ∀ root', root' ≠ root → ∀ s, cur st root' = some s → cur (removeRoot st root) root' = some s := by
    intro root' hne s h
    cases root' with
    | other => exact h
    | obj t => exact h
    | name r =>
      cases root with
      | other => exact h
      | obj t => exact h
      | name q =>
        show Dict.get? (Dict.erase st.samples q) r = some s
        rw [Dict.get?_erase, if_neg (fun e => hne (by rw [e]))]
        exact h
  refine ⟨?_, ?_, ?_⟩
  · intro root' n l d hd
    have hd : ((Dict.get? (Dict.erase st.d1 root) root').getD []).get? (n, l) = some d := hd
    rw [Dict.get?_erase] at hd
    split at hd
    · simp at hd
    · rename_i e
      obtain ⟨s, d', h1, h2⟩ := hi.d1 root' n l d hd
      exact ⟨s, d', hcur _ e _ h1, h2⟩
  · intro root' k g hd
    have hd : ((Dict.get? (Dict.erase st.d2 root) root').getD []).get? k = some g := hd
    rw [Dict.get?_erase] at hd
    split at hd
    · simp at hd
    · rename_i e
      obtain ⟨s, h1, h2⟩ := hi.d2 root' k g hd
      exact ⟨s, hcur _ e _ h1, h2⟩
  · intro root' u hd
    have hd : Dict.get? (Dict.erase st.singles root) root' = some u := hd
    rw [Dict.get?_erase] at hd
    split at hd
    · simp at hd
    · rename_i e
      obtain ⟨s, h1, h2⟩ := hi.singles root' u hd
      exact ⟨s, hcur _ e _ h1, h2⟩

theorem step_inv (w : World S D G U) (defaults : Settings) (rel : D → D → Prop) (hrefl : ∀ d, rel d d) {st : St S D G U} (hi : Inv w rel st)
    (op : Op S) (hc : Cached op) (hn : Unnormed op ∨ ∀ d' d, rel d' d → rel d' (w.norm d)) : Inv w rel (step w defaults st op) := by
  cases op with
  | samples root f cache c =>
    have hc : cache = true := hc
    subst hc
    simp only [step]
    cases hs : samplesForRoot w st root f true c with
    | error e => exact hi
    | ok p => exact inv_ext hi (cached_ok hs).2
  | addRoot f =>
    simp only [step]
    cases hs : addRoot w st f with
    | error e => exact hi
    | ok p => exact inv_ext hi (cached_ok hs).2
  | remove root => exact remove_inv hi root
  | reset g p => exact inv_fresh _ _ ⟨rfl, rfl, rfl⟩
  | density root n l =>
    simp only [step]
    cases hs : getDensity w st root n l with
    | error e => exact hi
    | ok p => exact (getDensity_inv hrefl hi hs).1
  | grid root p1 p2 c l =>
    simp only [step]
    cases hs : getDensityGrid w st root p1 p2 c l with
    | error e => exact hi
    | ok p => exact (grid_inv hi hs).1
  | single root =>
    simp only [step]
    cases hs : loadSingle w st root with
    | error e => exact hi
    | ok p => exact (single_inv hi hs).1
  | curve root n l nz =>
    simp only [step]
    cases hs : add1d w st root n l (some nz) false with
    | error e => exact hi
    | ok p =>
      refine (add1d_inv hrefl ?_ hi hs).1
      intro hz
      rcases hn with hn | hn
      · exact absurd (hz.symm.trans hn) (by simp)
      · exact hn
  | names root l =>
    simp only [step]
    cases hs : paramsForRoot w st root l with
    | error e => exact hi
    | ok p =>
      obtain ⟨t, st1, h1, h2, h3, h4, h5⟩ := names_state (st' := p.2) (ps := p.1) hs
      have he := (cached_ok h1).2
      refine inv_ext hi ⟨?_, h3.trans he.d1, h4.trans he.d2, h5.trans he.singles⟩
      intro root' s' h'
      rw [show cur (after st (.ok p)) root' = cur st1 root' from cur_congr h2 root']
      exact he.cur _ _ h'

theorem run_inv (w : World S D G U) (defaults : Settings) (rel : D → D → Prop) (hrefl : ∀ d, rel d d) (ops : List (Op S)) (hc : ∀ op ∈ ops, Cached op)
    (hn : (∀ op ∈ ops, Unnormed op) ∨ ∀ d' d, rel d' d → rel d' (w.norm d)) {st : St S D G U} (hi : Inv w rel st) :
    Inv w rel (run w defaults st ops) := by
  unfold run
  induction ops generalizing st with
  | nil => exact hi
  | cons op ops ih =>
    rw [List.foldl_cons]
    refine ih (fun o ho => hc o (by simp [ho])) ?_ (step_inv w defaults rel hrefl hi op (hc op (by simp)) ?_)
    · rcases hn with hn | hn
      · exact Or.inl (fun o ho => hn o (by simp [ho]))
      · exact Or.inr hn
    · rcases hn with hn | hn
      · exact Or.inl (hn op (by simp))
      · exact Or.inr hn

/-- **A density is that of the samples now in use.**  After any calls other than explicit reloads and normalised curves, the density
given for a root and parameter is the one computed from the samples that answer for the root. -/
theorem density_of_samples_partial (w : World S D G U) (defaults : Settings) (st : St S D G U) (h0 : Fresh st) (ops : List (Op S))
    (hc : ∀ op ∈ ops, Cached op) (hu : ∀ op ∈ ops, Unnormed op) (root : Root S) (n : Str) (l : Bool) (od : Option D) (st' : St S D G U)
    (h : getDensity w (run w defaults st ops) root n l = .ok (od, st')) :
    ∃ s, cur st' root = some s ∧ od = w.density1 s n l := by
  have hi := run_inv w defaults Eq (fun _ => rfl) ops hc (Or.inl hu) (inv_fresh w Eq h0.2)
  obtain ⟨_, s, hs, hd⟩ := getDensity_inv (fun _ => rfl) hi h
  refine ⟨s, hs, ?_⟩
  rcases hd with ⟨h1, h2⟩ | ⟨d, d', h1, h2, h3⟩
  · rw [h1, h2]
  · rw [h1, h2, h3]

/-- **A grid density is that of the samples now in use**, after any calls other than explicit reloads. -/
theorem grid_of_samples_partial (w : World S D G U) (defaults : Settings) (st : St S D G U) (h0 : Fresh st) (ops : List (Op S))
    (hc : ∀ op ∈ ops, Cached op) (root : Root S) (p1 p2 : Str) (c : Nat) (l : Bool) (og : Option G) (st' : St S D G U)
    (h : getDensityGrid w (run w defaults st ops) root p1 p2 c l = .ok (og, st')) :
    ∃ s, cur st' root = some s ∧ og = w.density2 s p1 p2 l c :=
  (grid_inv (run_inv w defaults (fun _ _ => True) (fun _ => trivial) ops hc (Or.inr (fun _ _ _ => trivial)) (inv_fresh w _ h0.2)) h).2

/-- **The single samples are those of the samples now in use**, after any calls other than explicit reloads. -/
theorem single_of_samples_partial (w : World S D G U) (defaults : Settings) (st : St S D G U) (h0 : Fresh st) (ops : List (Op S))
    (hc : ∀ op ∈ ops, Cached op) (root : Root S) (u : U) (st' : St S D G U)
    (h : loadSingle w (run w defaults st ops) root = .ok (u, st')) : ∃ s, cur st' root = some s ∧ u = w.single s :=
  (single_inv (run_inv w defaults (fun _ _ => True) (fun _ => trivial) ops hc (Or.inr (fun _ _ _ => trivial)) (inv_fresh w _ h0.2)) h).2

/-- **A normalised curve is always the normalised density of the samples now in use**, after any calls other than explicit reloads,
normalised curves included. -/
theorem normalized_curve_partial (w : World S D G U) (hnn : ∀ d, w.norm (w.norm d) = w.norm d) (defaults : Settings) (st : St S D G U) (h0 : Fresh st)
    (ops : List (Op S)) (hc : ∀ op ∈ ops, Cached op) (root : Root S) (n : Str) (l setting : Bool) (od : Option D) (st' : St S D G U)
    (h : add1d w (run w defaults st ops) root n l (some true) setting = .ok (od, st')) :
    ∃ s, cur st' root = some s ∧ od = (w.density1 s n l).map w.norm := by
  have hrel : ∀ d' d, (d = d' ∨ d = w.norm d') → (w.norm d = d' ∨ w.norm d = w.norm d') := by
    rintro d' d (rfl | rfl)
    · exact Or.inr rfl
    · exact Or.inr (hnn d')
  have hi := run_inv w defaults (fun d' d => d = d' ∨ d = w.norm d') (fun d => Or.inl rfl) ops hc (Or.inr hrel) (inv_fresh w _ h0.2)
  obtain ⟨_, s, hs, hd⟩ := add1d_inv (rel := fun d' d => d = d' ∨ d = w.norm d') (fun d => Or.inl rfl) (fun _ => hrel) hi h
  refine ⟨s, hs, ?_⟩
  rcases hd with ⟨h1, h2⟩ | ⟨d, d', h1, h2, h3⟩
  · rw [h1, h2]; rfl
  · rw [h1, h2]
    rcases h3 with rfl | rfl
    · rfl
    · simp [hnn]

/-- **A curve that is not normalised is the density of the samples now in use**, if no normalised curve was drawn before. -/
theorem curve_partial (w : World S D G U) (defaults : Settings) (st : St S D G U) (h0 : Fresh st)
    (ops : List (Op S)) (hc : ∀ op ∈ ops, Cached op) (hu : ∀ op ∈ ops, Unnormed op) (root : Root S) (n : Str) (l setting : Bool) (od : Option D)
    (st' : St S D G U) (h : add1d w (run w defaults st ops) root n l (some false) setting = .ok (od, st')) :
    ∃ s, cur st' root = some s ∧ od = w.density1 s n l := by
  have hi := run_inv w defaults Eq (fun _ => rfl) ops hc (Or.inl hu) (inv_fresh w Eq h0.2)
  obtain ⟨_, s, hs, hd⟩ := add1d_inv (nz := false) (fun _ => rfl) (by simp) hi h
  refine ⟨s, hs, ?_⟩
  rcases hd with ⟨h1, h2⟩ | ⟨d, d', h1, h2, h3⟩
  · rw [h1, h2]
  · rw [h1, h2, h3]; rfl

/-! ### Example: two chains in one directory, densities as tables of values -/

/-- samples are named by file, time and settings; the density of `x` is a table -/
abbrev ExS := Str × Nat × Settings

def exWorld : World ExS (List ℚ) Str Nat where
  load t f c := some (f, t, c)
  density1 s n _ := if n = c!"x" then some [(s.2.1 : ℚ), 1, 1 / 2] else none
  density2 s p1 p2 _ _ := some (s.1 ++ p1 ++ p2)
  single s := s.2.1
  norm P := P.map (· / Density.integrate1 1 P)

def exState : St ExS (List ℚ) Str Nat where
  dirs := [.dir (fun r => if r = c!"a" ∨ r = c!"b" then some (c!"/d/" ++ r) else none) none]
  ini := some 0
  heap := [[]]
  names _ := [{ name := c!"x", label := c!"X" }]

def value {α : Type} (r : Except Err (α × St ExS (List ℚ) Str Nat)) : Except Err α := r.map (·.1)

example : Fresh exState ∧
    value (samplesForRoot exWorld (run exWorld [] exState [.samples (.name c!"a") none true [], .addRoot c!"/q/b", .density (.name c!"a") c!"x" false,
      .remove (.name c!"b"), .samples (.name c!"b") none false []]) (.name c!"a") none true []) = .ok (c!"/d/a", 0, []) ∧
    value (getDensity exWorld (run exWorld [] exState [.density (.name c!"b") c!"x" true, .grid (.name c!"a") c!"x" c!"y" 2 false]) (.name c!"a") c!"x" false)
      = .ok (some [1, 1, 1 / 2]) := by
  refine ⟨⟨rfl, rfl, rfl, rfl⟩, ?_, ?_⟩ <;> decide +kernel

example : value (add1d exWorld (run exWorld [] exState [.density (.name c!"b") c!"x" true, .curve (.name c!"a") c!"x" false true]) (.name c!"a") c!"x" false (some true) false)
      = .ok (some [4 / 7, 4 / 7, 2 / 7]) := by decide +kernel

example : value (samplesForRoot exWorld (removeRoot (run exWorld [] exState [.addRoot c!"old/a"]) (.name c!"a")) (.name c!"a") none true [])
      = .ok (c!"/d/a", 1, []) ∧ value (addRoot exWorld (run exWorld [] exState [.addRoot c!"old/b"]) c!"new/a") = .ok (c!"new/a", 1, []) ∧
    value (loadSingle exWorld (run exWorld [] exState [.addRoot c!"old/b", .addRoot c!"old/a"]) (.name c!"a")) = .ok 1 ∧
    value (getDensityGrid exWorld (run exWorld [] exState [.addRoot c!"old/b"]) (.name c!"b") c!"x" c!"y" 2 false) = .ok (some c!"old/bxy") := by
  refine ⟨?_, ?_, ?_, ?_⟩ <;> decide +kernel

/-! ## What fails -/

/-- the full statement: whatever was called before, a density belongs to the samples that now answer for the root -/
def DensityOfSamples : Prop :=
  ∀ (w : World ExS (List ℚ) Str Nat) (st : St ExS (List ℚ) Str Nat), Fresh st → ∀ (ops : List (Op ExS)) (root : Root ExS) (n : Str) (l : Bool)
    (od : Option (List ℚ)) (st' : St ExS (List ℚ) Str Nat), (∀ op ∈ ops, Unnormed op) → getDensity w (run w [] st ops) root n l = .ok (od, st') →
    ∃ s, cur st' root = some s ∧ od = w.density1 s n l

/-- Loading samples again (`samples_for_root(root, cache=False)`, e.g. with other settings) replaces the samples but keeps the cached
densities of the old ones (plots.py:526-528, 580-592): plots after it still show the old densities. -/
theorem stale_density_fails : ¬ DensityOfSamples := by
  intro h
  have e : value (getDensity exWorld (run exWorld [] exState
      [.density (.name c!"a") c!"x" false, .samples (.name c!"a") none false [(c!"ignore_rows", c!"0.5")]]) (.name c!"a") c!"x" false)
      = .ok (some [0, 1, 1 / 2]) ∧
      (after exState (getDensity exWorld (run exWorld [] exState
      [.density (.name c!"a") c!"x" false, .samples (.name c!"a") none false [(c!"ignore_rows", c!"0.5")]]) (.name c!"a") c!"x" false)).samples.get? c!"a"
        = some (c!"/d/a", 1, [(c!"ignore_rows", c!"0.5")]) := by decide +kernel
  cases hg : getDensity exWorld (run exWorld [] exState
      [.density (.name c!"a") c!"x" false, .samples (.name c!"a") none false [(c!"ignore_rows", c!"0.5")]]) (.name c!"a") c!"x" false with
  | error x => rw [hg] at e; simp [value, Except.map] at e
  | ok p =>
    rw [hg] at e
    obtain ⟨s, h1, h2⟩ := h exWorld exState ⟨rfl, rfl, rfl, rfl⟩ _ _ _ _ p.1 p.2 (by simp only [List.forall_mem_cons, Unnormed]; simp) hg
    have e1 : p.1 = some [0, 1, 1 / 2] := by simpa [value, Except.map] using e.1
    have e2 : p.2.samples.get? c!"a" = some (c!"/d/a", 1, [(c!"ignore_rows", c!"0.5")]) := e.2
    have h1 : p.2.samples.get? c!"a" = some s := h1
    rw [e2] at h1
    cases h1
    rw [e1] at h2
    revert h2
    decide +kernel

/-- the full statement: the curve drawn depends only on the samples, the parameter and the requested normalisation -/
def CurveOfSamples : Prop :=
  ∀ (w : World ExS (List ℚ) Str Nat) (st : St ExS (List ℚ) Str Nat), Fresh st → ∀ (ops : List (Op ExS)) (root : Root ExS) (n : Str) (l : Bool)
    (od : Option (List ℚ)) (st' : St ExS (List ℚ) Str Nat), (∀ op ∈ ops, Cached op) → add1d w (run w [] st ops) root n l (some false) false = .ok (od, st') →
    ∃ s, cur st' root = some s ∧ od = w.density1 s n l

/-- `add_1d` normalises the cached density itself (plots.py:976, densities.py:87-88): after one normalised plot, a later plot of the same
parameter that asks for unit maximum shows the normalised curve, at the wrong height. -/
theorem normalized_stays_fails : ¬ CurveOfSamples := by
  intro h
  have e : value (add1d exWorld (run exWorld [] exState [.curve (.name c!"a") c!"x" false true]) (.name c!"a") c!"x" false (some false) false)
      = .ok (some [0, 4 / 5, 2 / 5]) ∧
      (after exState (add1d exWorld (run exWorld [] exState [.curve (.name c!"a") c!"x" false true]) (.name c!"a") c!"x" false (some false) false)).samples.get? c!"a"
        = some (c!"/d/a", 0, []) := by decide +kernel
  cases hg : add1d exWorld (run exWorld [] exState [.curve (.name c!"a") c!"x" false true]) (.name c!"a") c!"x" false (some false) false with
  | error x => rw [hg] at e; simp [value, Except.map] at e
  | ok p =>
    rw [hg] at e
    obtain ⟨s, h1, h2⟩ := h exWorld exState ⟨rfl, rfl, rfl, rfl⟩ _ _ _ _ p.1 p.2 (by simp only [List.forall_mem_cons, Cached]; simp) hg
    have e1 : p.1 = some [0, 4 / 5, 2 / 5] := by simpa [value, Except.map] using e.1
    have e2 : p.2.samples.get? c!"a" = some (c!"/d/a", 0, []) := e.2
    have h1 : p.2.samples.get? c!"a" = some s := h1
    rw [e2] at h1
    cases h1
    rw [e1] at h2
    revert h2
    decide +kernel

/-- the full statement: after a successful `add_root` the samples come from that file -/
def AddRootLoads : Prop :=
  ∀ (st : St ExS (List ℚ) Str Nat) (file : Str) (s : ExS) (st' : St ExS (List ℚ) Str Nat), addRoot exWorld st file = .ok (s, st') → s.1 = file

/-- the first file added under a base name is the one that is loaded -/
theorem add_root_partial (w : World S D G U) (st : St S D G U) (file : Str) (h : st.samples.get? (Path.basename file) = none) :
    addRoot w st file = loadRoot w st (Path.basename file) (some file) [] := by
  simp [addRoot, samplesForRoot, h]

/-- `add_root` caches under the base name (plots.py:553): adding chains of the same name from a second directory gives the samples of
the first. -/
theorem add_root_same_name_fails : ¬ AddRootLoads := by
  intro h
  have e : value (addRoot exWorld (run exWorld [] exState [.addRoot c!"old/a"]) c!"new/a") = .ok (c!"old/a", 0, []) := by decide +kernel
  cases hg : addRoot exWorld (run exWorld [] exState [.addRoot c!"old/a"]) c!"new/a" with
  | error x => rw [hg] at e; simp [value, Except.map] at e
  | ok p =>
    rw [hg] at e
    have e1 : p.1 = (c!"old/a", 0, []) := by simpa [value, Except.map] using e
    have := h _ _ p.1 p.2 hg
    rw [e1] at this
    revert this
    decide

/-- the full statement: samples asked for with settings are analysed with those settings -/
def SettingsUsed : Prop :=
  ∀ (st : St ExS (List ℚ) Str Nat) (r : Str) (c : Settings) (s : ExS) (st' : St ExS (List ℚ) Str Nat),
    samplesForRoot exWorld st (.name r) none true c = .ok (s, st') → ∀ k v, c.get? k = some v → s.2.2.get? k = some v

/-- Settings given for a root that is already loaded are ignored without a message (plots.py:491-492). -/
theorem settings_ignored_fails : ¬ SettingsUsed := by
  intro h
  have e : value (samplesForRoot exWorld (run exWorld [] exState [.samples (.name c!"a") none true []]) (.name c!"a") none true
      [(c!"ignore_rows", c!"0.5")]) = .ok (c!"/d/a", 0, []) := by decide +kernel
  cases hg : samplesForRoot exWorld (run exWorld [] exState [.samples (.name c!"a") none true []]) (.name c!"a") none true [(c!"ignore_rows", c!"0.5")] with
  | error x => rw [hg] at e; simp [value, Except.map] at e
  | ok p =>
    rw [hg] at e
    have e1 : p.1 = (c!"/d/a", 0, []) := by simpa [value, Except.map] using e
    have := h _ _ _ p.1 p.2 hg c!"ignore_rows" c!"0.5" (by decide)
    rw [e1] at this
    revert this
    decide

/-- the full statement: `plot_1d` without a `normalized` argument follows the setting `norm_1d_density` -/
def SettingFollowed : Prop :=
  ∀ (st : St ExS (List ℚ) Str Nat), Fresh st → ∀ (root : Root ExS) (n : Str) (l setting : Bool),
    value (plot1d exWorld st root n l setting) = value (add1d exWorld st root n l none setting)

/-- The default `normalized=False` of `plot_1d` is passed on as if it had been asked for (plots.py:1531, 1585, 963): the setting
`norm_1d_density` has no effect on plots. -/
theorem norm_setting_fails : ¬ SettingFollowed := by
  intro h
  have := h exState ⟨rfl, rfl, rfl, rfl⟩ (.name c!"a") c!"x" false true
  revert this
  decide +kernel

end Verif.Analyser
