import Verif.Model.Chains
import Verif.Props.Samples
import Verif.Props.Reweight
import Verif.Props.ParamNames
import Mathlib.Tactic.Positivity
import Mathlib.Tactic.FieldSimp

/-!
# C19-C22, C57, C58: chains

The specification of a `Chains` object is a list of chains, each a list of records (`Row`).
-/

namespace Verif.Chains
open Verif.Py Verif.Py.Np Verif.Thin Verif.Samples
set_option linter.unusedSectionVars false

variable {K : Type} [Field K] [LinearOrder K] [FloorRing K]

/-! ### specification -/

/-- boundaries of consecutive blocks of the given lengths, from position `p` -/
def starts (p : Nat) : List Nat → List Nat
  | [] => [p]
  | l :: ls => p :: starts (p + l) ls

/-- the chains are combined: one array with all rows, and offsets at the chain boundaries -/
structure Combined (c : CH K) (hasL : Bool) (n : Nat) (segs : List (List (Row K))) : Prop where
  chains : c.chains = none
  offsets : c.offsets = some (starts 0 (segs.map List.length))
  ws : Rep c.ws hasL n segs.flatten

/-- a list of sample objects holding the given chains -/
def Hold (ratio : Option K) (hasL : Bool) (n : Nat) (cs : List (WS K)) (segs : List (List (Row K))) : Prop :=
  List.Forall₂ (fun s seg => Rep s hasL n seg ∧ s.minWeightRatio = ratio) cs segs

/-- the chains are separate -/
structure Separate (c : CH K) (ratio : Option K) (hasL : Bool) (n : Nat) (segs : List (List (Row K))) : Prop where
  chains : ∃ cs, c.chains = some cs ∧ Hold ratio hasL n cs segs
  samples : c.ws.samples = none

/-- rows of `seg` selected by a mask -/
def keep {α : Type} (seg : List α) (m : List Bool) : List α := ((seg.zip m).filter (·.2)).map (·.1)

/-- cut a mask at the chain boundaries and apply each part to its chain -/
def maskSegs {α : Type} : List (List α) → List Bool → List (List α)
  | [], _ => []
  | s :: ss, m => keep s (m.take s.length) :: maskSegs ss (m.drop s.length)

/-- the outcome `r` agrees with the specified outcome: same error, or results related by `R` -/
def Ag {ε β δ : Type} (R : β → δ → Prop) (r : Except ε β) (spec : Except ε δ) : Prop :=
  match spec with
  | .error e => r = .error e
  | .ok d => ∃ b, r = .ok b ∧ R b d

/-- two chains, used in the examples -/
def exSegs : List (List (Row ℚ)) := [[⟨[1, 5], 2, 10⟩, ⟨[3, 5], 1, 20⟩, ⟨[4, 6], 1, 30⟩], [⟨[8, 7], 4, 40⟩, ⟨[9, 7], 2, 50⟩]]

def exSep : CH ℚ := { chains := some [
  { samples := some ⟨2, [[1, 5], [3, 5], [4, 6]]⟩, weights := some [2, 1, 1], loglikes := some [10, 20, 30], n := 2, numrows := 3, minWeightRatio := defaultRatio },
  { samples := some ⟨2, [[8, 7], [9, 7]]⟩, weights := some [4, 2], loglikes := some [40, 50], n := 2, numrows := 2, minWeightRatio := defaultRatio }] }

def exCom : CH ℚ := { offsets := some [0, 3, 5], ws :=
  { samples := some ⟨2, [[1, 5], [3, 5], [4, 6], [8, 7], [9, 7]]⟩, weights := some [2, 1, 1, 4, 2], loglikes := some [10, 20, 30, 40, 50], n := 2, numrows := 5 } }

theorem exSep_separate : Separate exSep defaultRatio true 2 exSegs :=
  ⟨⟨_, rfl, .cons ⟨⟨rfl, rfl, rfl, rfl, rfl⟩, rfl⟩ (.cons ⟨⟨rfl, rfl, rfl, rfl, rfl⟩, rfl⟩ .nil)⟩, rfl⟩

theorem exCom_combined : Combined exCom true 2 exSegs := ⟨rfl, rfl, ⟨rfl, rfl, rfl, rfl, rfl⟩⟩

/-! ### lists -/

theorem mapM_ag {ε α β γ δ : Type} {f : α → Except ε β} {g : γ → Except ε δ} {R : β → δ → Prop} {as : List α}
    {cs : List γ} (h : List.Forall₂ (fun a c => Ag R (f a) (g c)) as cs) :
    Ag (List.Forall₂ R) (as.mapM f) (cs.mapM g) := by
  induction h with
  | nil => exact ⟨[], rfl, .nil⟩
  | @cons a c as cs hac _ ih =>
    rw [List.mapM_cons, List.mapM_cons]
    unfold Ag at hac ih ⊢
    cases hg : g c with
    | error e => rw [hg] at hac; simp only at hac; rw [hac]; rfl
    | ok d =>
      rw [hg] at hac
      obtain ⟨b, hb, hR⟩ := hac
      rw [hb]
      simp only [bind, Except.bind]
      cases hm : cs.mapM g with
      | error e => rw [hm] at ih; simp only at ih ⊢; rw [ih]
      | ok ds =>
        rw [hm] at ih
        obtain ⟨bs, hbs, hRs⟩ := ih
        rw [hbs]
        exact ⟨b :: bs, rfl, .cons hR hRs⟩

theorem mapM_ok {ε α β : Type} {f : α → Except ε β} {g : α → β} {l : List α} (h : ∀ a ∈ l, f a = .ok (g a)) :
    l.mapM f = .ok (l.map g) := by
  induction l with
  | nil => rfl
  | cons a l ih =>
    rw [List.mapM_cons, h a (by simp), ih (fun x hx => h x (by simp [hx]))]; rfl

theorem cumsumFrom_starts (p : Nat) (ls : List Nat) : p :: cumsumFrom p ls = starts p ls := by
  induction ls generalizing p with
  | nil => rfl
  | cons l ls ih => simp only [cumsumFrom, starts]; rw [ih]

theorem cumsum_starts (ls : List Nat) : cumsum (0 :: ls) = starts 0 ls := by
  unfold cumsum; simp only [cumsumFrom]; exact cumsumFrom_starts 0 ls

/-- start and end of consecutive blocks -/
def spans (p : Nat) : List Nat → List (Nat × Nat)
  | [] => []
  | l :: ls => (p, p + l) :: spans (p + l) ls

theorem starts_eq (p : Nat) (ls : List Nat) : ∃ t, starts p ls = p :: t := by cases ls <;> exact ⟨_, rfl⟩

theorem zip_starts (p : Nat) (ls : List Nat) : (starts p ls).zip (starts p ls).tail = spans p ls := by
  induction ls generalizing p with
  | nil => rfl
  | cons l ls ih =>
    have := ih (p + l)
    obtain ⟨t, ht⟩ := starts_eq (p + l) ls
    simp only [starts, spans, List.tail_cons, ht] at this ⊢
    rw [List.zip_cons_cons, this]

theorem zipWith_starts {β : Type} (f : Nat → Nat → β) (p : Nat) (ls : List Nat) :
    List.zipWith f (starts p ls) (starts p ls).tail = (spans p ls).map (fun q => f q.1 q.2) := by
  rw [← zip_starts, List.zip, List.map_zipWith]

theorem slice_mid {α : Type} (pre seg rest : List α) :
    slice (pre ++ (seg ++ rest)) pre.length (some (pre.length + seg.length)) = seg := by
  simp [slice, List.take_append, List.take_of_length_le]

/-! ### makeSingle -/

theorem hold_arrays {ratio : Option K} {hasL : Bool} {n : Nat} {cs : List (WS K)} {segs : List (List (Row K))}
    (h : Hold ratio hasL n cs segs) :
    cs.mapM (fun s => need s.samples) =
      .ok (segs.map (fun seg => (⟨n, seg.map (·.sample)⟩ : Arr2 K))) := by
  induction h with
  | nil => rfl
  | cons hs _ ih => rw [List.mapM_cons, hs.1.samples, ih]; rfl

theorem hold_hstack {ratio : Option K} {hasL : Bool} {n : Nat} {cs : List (WS K)} {segs : List (List (Row K))}
    (h : Hold ratio hasL n cs segs) (f : WS K → Option (List K)) (g : Row K → K)
    (hf : ∀ s seg, Rep s hasL n seg → f s = some (seg.map g)) :
    hstack (cs.map f) = .ok (segs.flatten.map g) := by
  have : (cs.map f).mapM need = .ok (segs.map (fun seg => seg.map g)) := by
    induction h with
    | nil => rfl
    | cons hs _ ih => rw [List.map_cons, List.mapM_cons, hf _ _ hs.1, ih]; rfl
  unfold hstack
  rw [this]
  simp only [bind, Except.bind, pure, Except.pure]
  rw [List.map_flatten]

theorem vstack_segs (n : Nat) (seg : List (Row K)) (segs : List (List (Row K))) :
    vstack ((seg :: segs).map (fun seg => (⟨n, seg.map (·.sample)⟩ : Arr2 K))) =
      .ok ⟨n, (seg :: segs).flatten.map (·.sample)⟩ := by
  unfold vstack
  simp [Function.comp_def, List.map_flatten]

/-- combining separate chains: all rows in order, boundaries at the chain ends -/
theorem makeSingle_combined {c : CH K} {ratio : Option K} {hasL : Bool} {n : Nat} {segs : List (List (Row K))}
    (h : Separate c ratio hasL n segs) (hne : segs ≠ []) :
    ∃ c', makeSingle c = .ok c' ∧ Combined c' hasL n segs ∧ c'.ws.minWeightRatio = c.ws.minWeightRatio ∧
      c'.names = c.names := by
  obtain ⟨⟨cs, hcs, hold⟩, _⟩ := h
  cases hold with
  | nil => exact absurd rfl hne
  | @cons s seg cs segs hs hrest =>
    have hold : Hold ratio hasL n (s :: cs) (seg :: segs) := .cons hs hrest
    refine ⟨({ c with
        ws := setSamplesRaw c.ws ⟨n, (seg :: segs).flatten.map (·.sample)⟩
                (some ((seg :: segs).flatten.map (·.weight)))
                (if hasL then some ((seg :: segs).flatten.map (·.loglike)) else none)

        offsets := some (starts 0 ((seg :: segs).map List.length))
        chains := none } : CH K), ?_,
      ⟨rfl, rfl, rep_setRaw _ _ _ _⟩, ratio_setRaw _ _ _ _, rfl⟩
    unfold makeSingle
    rw [hcs]
    dsimp only
    rw [hold_arrays hold]
    have ho : cumsum (0 :: List.map (fun x : Arr2 K => x.rows.length)
        (List.map (fun seg : List (Row K) => (⟨n, seg.map (·.sample)⟩ : Arr2 K)) (seg :: segs))) =
        starts 0 ((seg :: segs).map List.length) := by
      rw [cumsum_starts]; simp [Function.comp_def]
    simp only [bind, Except.bind, ho, hs.1.weights, hs.1.loglikes, vstack_segs,
      hold_hstack hold (·.weights) (·.weight) (fun s seg h => h.weights)]
    cases hasL with
    | false => rfl
    | true => simp only [hold_hstack hold (·.loglikes) (·.loglike) (fun s seg h => h.loglikes)]; rfl

example : ∃ c', makeSingle exSep = .ok c' ∧ Combined c' true 2 exSegs ∧ c'.ws.samples = some ⟨2, [[1, 5], [3, 5], [4, 6], [8, 7], [9, 7]]⟩ ∧ c'.offsets = some [0, 3, 5] := by
  obtain ⟨c', h, hc, _⟩ := makeSingle_combined exSep_separate (by decide)
  exact ⟨c', h, hc, hc.ws.samples, hc.offsets⟩

/-! ### getSeparateChains -/

theorem piece_ag {s : WS K} {n : Nat} {pre seg rest : List (Row K)} (h : Rep s true n (pre ++ (seg ++ rest))) :
    Ag (fun s' kept => Rep s' true n kept ∧ s'.minWeightRatio = defaultRatio)
      (piece s pre.length (pre.length + seg.length)) (autoCut defaultRatio seg) := by
  have hc := create_agrees (fun x => x) true n seg (defaultRatio : Option K)
  unfold piece
  rw [h.samples, h.weights, h.loglikes]
  simp only [if_true] at hc ⊢
  have e : ∀ {β : Type} (f : Row K → β), slice ((pre ++ (seg ++ rest)).map f) pre.length
      (some (pre.length + seg.length)) = seg.map f := by
    intro β f
    have := slice_mid (pre.map f) (seg.map f) (rest.map f)
    simpa using this
  rw [e, e, e]
  unfold Ag
  cases ha : autoCut (defaultRatio : Option K) seg with
  | error e => rw [ha] at hc; exact hc
  | ok kept =>
    rw [ha] at hc
    obtain ⟨s', h1, h2, h3, _⟩ := hc
    exact ⟨s', h1, h2, h3⟩

/-- splitting combined chains gives every chain after the automatic weight cut -/
theorem getSeparate_agrees {c : CH K} {n : Nat} {segs : List (List (Row K))} (h : Combined c true n segs) :
    Ag (Hold defaultRatio true n) (getSeparateChains c) (segs.mapM (autoCut defaultRatio)) := by
  unfold getSeparateChains
  rw [h.chains, h.offsets]
  simp only [zip_starts]
  apply mapM_ag
  have key : ∀ (segs : List (List (Row K))) (pre : List (Row K)), Rep c.ws true n (pre ++ segs.flatten) →
      List.Forall₂ (fun (p : Nat × Nat) seg => Ag (fun s' kept => Rep s' true n kept ∧ s'.minWeightRatio = defaultRatio)
        (piece c.ws p.1 p.2) (autoCut defaultRatio seg)) (spans pre.length (segs.map List.length)) segs := by
    intro segs
    induction segs with
    | nil => intro pre _; exact .nil
    | cons seg segs ih =>
      intro pre hr
      rw [List.flatten_cons] at hr
      refine .cons (piece_ag hr) ?_
      have := ih (pre ++ seg) (by simpa using hr)
      simpa using this
  exact key segs [] (by simpa using h.ws)

example : (getSeparateChains exCom).map (fun cs => cs.map (fun s => (s.samples, s.weights))) =
    .ok [(some ⟨2, [[1, 5], [3, 5], [4, 6]]⟩, some [2, 1, 1]), (some ⟨2, [[8, 7], [9, 7]]⟩, some [4, 2])] := by decide +kernel

example : Ag (Hold defaultRatio true 2) (getSeparateChains exCom) (exSegs.mapM (autoCut defaultRatio)) := getSeparate_agrees exCom_combined

/-- no row of the chain is below the minimum weight ratio -/
def NoCut (seg : List (Row K)) : Prop := seg ≠ [] ∧ ∀ x ∈ seg, ∀ y ∈ seg, y.weight * (1 / 10 ^ 30) ≤ x.weight

theorem max?_spec {l : List K} {m : K} (h : max? l = .ok m) : m ∈ l ∧ ∀ x ∈ l, x ≤ m := by
  cases l with
  | nil => cases h
  | cons a l =>
    simp only [max?, Except.ok.injEq] at h
    subst h
    constructor
    · induction l generalizing a with
      | nil => simp
      | cons b l ih =>
        simp only [List.foldl_cons]
        rcases List.mem_cons.1 (ih (max a b)) with h | h
        · rcases max_choice a b with h' | h' <;> rw [h, h'] <;> simp
        · simp [h]
    · induction l generalizing a with
      | nil => simp
      | cons b l ih =>
        intro x hx
        simp only [List.foldl_cons]
        have := ih (max a b)
        rcases List.mem_cons.1 hx with rfl | hx
        · exact le_trans (le_max_left _ _) (this (max x b) (by simp))
        · rcases List.mem_cons.1 hx with rfl | hx
          · exact le_trans (le_max_right _ _) (this (max a x) (by simp))
          · exact this x (by simp [hx])


theorem autoCut_noCut [IsStrictOrderedRing K] {seg : List (Row K)} (h : NoCut seg) :
    autoCut defaultRatio seg = .ok seg := by
  have hne : seg.map (·.weight) ≠ [] := by simpa using h.1
  obtain ⟨mx, hmx⟩ := max?_isSome hne
  obtain ⟨mn, hmn⟩ := min?_isSome hne
  obtain ⟨x, hx, rfl⟩ := List.mem_map.1 (max?_spec hmx).1
  obtain ⟨y, hy, rfl⟩ := List.mem_map.1 (min?_spec hmn).1
  unfold defaultRatio autoCut cut
  simp only []
  rw [if_pos (by positivity), hmx, hmn]
  simp only []
  rw [if_neg (not_lt.2 (h.2 y hy x hx))]

/-- **C19** combining separate chains and splitting them again gives back every chain, in order, with the same
samples, weights and likelihoods. -/
theorem combine_split [IsStrictOrderedRing K] {c : CH K} {ratio : Option K} {n : Nat} {segs : List (List (Row K))}
    {cs : List (WS K)} (h : Separate c ratio true n segs) (hcs : c.chains = some cs) (hne : segs ≠ [])
    (hw : ∀ seg ∈ segs, NoCut seg) :
    ∃ c' cs', makeSingle c = .ok c' ∧
      c'.ws.samples = some ⟨n, (segs.map (fun seg => seg.map (·.sample))).flatten⟩ ∧
      getSeparateChains c' = .ok cs' ∧
      List.Forall₂ (fun s s' => s'.samples = s.samples ∧ s'.weights = s.weights ∧ s'.loglikes = s.loglikes) cs cs' := by
  obtain ⟨c', h1, h2, -, -⟩ := makeSingle_combined h hne
  have h3 := getSeparate_agrees h2
  rw [mapM_ok (f := autoCut defaultRatio) (g := fun seg => seg) (fun seg hs => autoCut_noCut (hw seg hs)),
    List.map_id'] at h3
  obtain ⟨cs', h4, h5⟩ := h3
  refine ⟨c', cs', h1, ?_, h4, ?_⟩
  · rw [h2.ws.samples, List.map_flatten]
  · obtain ⟨⟨cs0, hcs0, hold⟩, -⟩ := h
    rw [hcs] at hcs0; cases hcs0
    clear hcs h1 h2 h4 hne hw
    induction hold generalizing cs' with
    | nil => cases h5; exact .nil
    | cons hs _ ih =>
      cases h5 with
      | cons hs' h5' =>
        refine .cons ⟨?_, ?_, ?_⟩ (ih _ h5')
        · rw [hs'.1.samples, hs.1.samples]
        · rw [hs'.1.weights, hs.1.weights]
        · rw [hs'.1.loglikes, hs.1.loglikes]

example : ∃ c' cs', makeSingle exSep = .ok c' ∧ getSeparateChains c' = .ok cs' ∧ cs'.map (·.weights) = [some [2, 1, 1], some [4, 2]] := by
  obtain ⟨c', cs', h1, _, h2, h3⟩ := combine_split exSep_separate rfl (by decide) (by
    intro seg hs
    simp only [exSegs, List.mem_cons, List.not_mem_nil, or_false] at hs
    rcases hs with rfl | rfl <;> refine ⟨by simp, ?_⟩ <;> simp <;> norm_num)
  refine ⟨c', cs', h1, h2, ?_⟩
  cases h3 with
  | cons a t => cases t with
    | cons b u => cases u with
      | nil => simp [a.2.1, b.2.1]

/-! ### combined chains: filtering -/

theorem Ag.bind {ε β δ β' δ' : Type} {R : β → δ → Prop} {R' : β' → δ' → Prop} {r : Except ε β} {s : Except ε δ}
    {f : β → Except ε β'} {g : δ → Except ε δ'} (h : Ag R r s) (hf : ∀ b d, R b d → Ag R' (f b) (g d)) :
    Ag R' (r >>= f) (s >>= g) := by
  cases s with
  | error e => simp only [Ag] at h; rw [h]; rfl
  | ok d =>
    obtain ⟨b, rfl, hR⟩ := h
    exact hf b d hR

theorem Ag.mono {ε β δ : Type} {R R' : β → δ → Prop} {r : Except ε β} {s : Except ε δ} (h : Ag R r s)
    (hR : ∀ b d, R b d → R' b d) : Ag R' r s := by
  cases s with
  | error e => exact h
  | ok d => obtain ⟨b, rfl, h⟩ := h; exact ⟨b, rfl, hR _ _ h⟩

theorem Ag.of_eq {ε β δ : Type} {R : β → δ → Prop} {r : Except ε β} {s s' : Except ε δ} (h : Ag R r s) (e : s = s') :
    Ag R r s' := e ▸ h

/-- the result of an operation on combined chains -/
def CombinedAs (c : CH K) (hasL : Bool) (n : Nat) (c' : CH K) (segs : List (List (Row K))) : Prop :=
  Combined c' hasL n segs ∧ c'.ws.minWeightRatio = c.ws.minWeightRatio ∧ c'.names = c.names ∧ c'.index = c.index

theorem keep_filterMap {α : Type} (a : List α) (m : List Bool) :
    (a.zip m).filterMap (fun p => if p.2 then some p.1 else none) = keep a m := by
  unfold keep
  induction a generalizing m with
  | nil => simp
  | cons x a ih => cases m with
    | nil => simp
    | cons b m => cases b <;> simp [ih]

theorem keep_append {α : Type} (a b : List α) (m : List Bool) (h : a.length ≤ m.length) :
    keep (a ++ b) m = keep a (m.take a.length) ++ keep b (m.drop a.length) := by
  unfold keep
  conv_lhs => rw [← List.take_append_drop a.length m]
  rw [List.zip_append (by simpa using h), List.filter_append, List.map_append]

theorem keep_flatten {α : Type} (segs : List (List α)) (m : List Bool) (h : segs.flatten.length = m.length) :
    keep segs.flatten m = (maskSegs segs m).flatten := by
  induction segs generalizing m with
  | nil => simp [keep, maskSegs]
  | cons s ss ih =>
    simp only [List.flatten_cons, List.length_append] at h
    simp only [List.flatten_cons, maskSegs]
    rw [keep_append _ _ _ (by omega), ih (m.drop s.length) (by rw [List.length_drop]; omega)]

theorem keep_length {α : Type} (s : List α) (m : List Bool) (h : s.length = m.length) :
    (m.filter id).length = (keep s m).length := by
  unfold keep
  induction s generalizing m with
  | nil => cases m <;> simp_all
  | cons x s ih => cases m with
    | nil => simp at h
    | cons b m => cases b <;> simp [ih m (by simpa using h)]

theorem count_spans {α : Type} (segs : List (List α)) (m : List Bool) (p : Nat)
    (h : p + segs.flatten.length = m.length) :
    (spans p (segs.map List.length)).map (fun q => countNonzero (.mask m) q.1 q.2) =
      (maskSegs segs (m.drop p)).map List.length := by
  induction segs generalizing p with
  | nil => rfl
  | cons s ss ih =>
    simp only [List.flatten_cons, List.length_append] at h
    simp only [List.map_cons, spans, maskSegs, List.drop_drop]
    rw [ih (p + s.length) (by omega)]
    congr 1
    unfold countNonzero slice
    simp only []
    rw [← keep_length s _ (by simp; omega), List.drop_take, Nat.add_sub_cancel_left]

theorem newOffsets_mask {α : Type} (segs : List (List α)) (m : List Bool) (h : segs.flatten.length = m.length) :
    newOffsets (starts 0 (segs.map List.length)) (.mask m) = starts 0 ((maskSegs segs m).map List.length) := by
  unfold newOffsets
  rw [zipWith_starts, count_spans segs m 0 (by simpa using h), cumsum_starts, List.drop_zero]

/-- **C20** a boolean filter of combined chains is the filter of every chain by its part of the mask -/
theorem filter_mask {c : CH K} {hasL : Bool} {n : Nat} {segs : List (List (Row K))} (h : Combined c hasL n segs)
    (m : List Bool) :
    Ag (CombinedAs c hasL n) (filter c (.mask m))
      (if segs.flatten.length = m.length then .ok (maskSegs segs m) else .error .indexError) := by
  have hf := filter_agrees (fun x => x) True h.ws (.mask m)
  unfold filter
  rw [h.chains]
  simp only [select, Np.mask] at hf ⊢
  by_cases hl : segs.flatten.length = m.length
  · rw [if_pos hl]
    rw [if_pos hl, keep_filterMap, keep_flatten _ _ hl] at hf
    obtain ⟨s', h1, h2, h3, -⟩ := hf
    refine ⟨({ c with ws := s', offsets := c.offsets.map (newOffsets · (.mask m)) } : CH K), ?_, ⟨h.chains, ?_, h2⟩, h3, rfl, rfl⟩
    · rw [h1, h.chains]; rfl
    · simp only [h.offsets, Option.map_some, newOffsets_mask _ _ hl]
  · rw [if_neg hl] at hf ⊢
    have hf : Samples.filter c.ws (.mask m) = .error .indexError := hf
    simp only [Ag, hf]; rfl

example : (filter exCom (.mask [true, false, true, false, true])).map (fun c => (c.ws.samples, c.offsets)) =
    .ok (some ⟨2, [[1, 5], [4, 6], [9, 7]]⟩, some [0, 2, 3]) := by decide +kernel

example : filter exCom (.mask [true, false]) = .error .indexError := filter_mask exCom_combined [true, false]

theorem maskSegs_filter {α : Type} (p : α → Bool) (segs : List (List α)) :
    maskSegs segs (segs.flatten.map p) = segs.map (List.filter p) := by
  induction segs with
  | nil => rfl
  | cons s ss ih =>
    simp only [maskSegs, List.flatten_cons, List.map_append, List.map_cons]
    rw [List.take_left' (by simp), List.drop_left' (by simp), ih]
    congr 1
    unfold keep
    clear ih
    induction s with
    | nil => rfl
    | cons x s ih => cases hp : p x <;> simp [hp, ih]

theorem filter_gt {c : CH K} {hasL : Bool} {n : Nat} {segs : List (List (Row K))} (h : Combined c hasL n segs) (t : K) :
    Ag (CombinedAs c hasL n) (filter c (gtMask (segs.flatten.map (·.weight)) t))
      (.ok (segs.map (List.filter (fun r => decide (t < r.weight))))) := by
  have := filter_mask h (segs.flatten.map (fun r => decide (t < r.weight)))
  rw [if_pos (List.length_map _).symm, maskSegs_filter] at this
  unfold gtMask
  rw [List.map_map]
  exact this

/-- **C20** removing zero weights -/
theorem deleteZeros_segs {c : CH K} {hasL : Bool} {n : Nat} {segs : List (List (Row K))} (h : Combined c hasL n segs) :
    Ag (CombinedAs c hasL n) (deleteZeros c) (.ok (segs.map (List.filter (fun r => decide (0 < r.weight))))) := by
  unfold deleteZeros
  rw [h.ws.weights]
  exact filter_gt h 0

example : ∃ c', deleteZeros exCom = .ok c' ∧ CombinedAs exCom true 2 c' exSegs := deleteZeros_segs exCom_combined

/-- minimum weight cut of a list of chains: the threshold is relative to the largest weight of all chains -/
def cutSegs (r : K) (segs : List (List (Row K))) : Except NErr (List (List (Row K))) :=
  if 0 ≤ r then
    match max? (segs.flatten.map (·.weight)), min? (segs.flatten.map (·.weight)) with
    | .ok mx, .ok mn =>
      .ok (if mn < mx * r then segs.map (List.filter (fun x => decide (mx * r < x.weight))) else segs)
    | _, _ => .error .valueError
  else .ok segs

def autoCutSegs (ratio : Option K) (segs : List (List (Row K))) : Except NErr (List (List (Row K))) :=
  match ratio with
  | none => .ok segs
  | some r => cutSegs r segs

theorem CombinedAs.refl {c : CH K} {hasL : Bool} {n : Nat} {segs : List (List (Row K))} (h : Combined c hasL n segs) :
    CombinedAs c hasL n c segs := ⟨h, rfl, rfl, rfl⟩

/-- **C20** the minimum weight cut -/
theorem setMinWeight_segs {c : CH K} {hasL : Bool} {n : Nat} {segs : List (List (Row K))} (h : Combined c hasL n segs)
    (r : K) : Ag (CombinedAs c hasL n) (setMinWeightRatio c r) (cutSegs r segs) := by
  unfold setMinWeightRatio cutSegs
  rw [h.ws.weights]
  simp only []
  split
  · cases hmx : max? (segs.flatten.map (·.weight)) with
    | error e => obtain ⟨rfl, _⟩ := max?_error hmx; rfl
    | ok mx =>
      cases hmn : min? (segs.flatten.map (·.weight)) with
      | error e => obtain ⟨rfl, _⟩ := min?_error hmn; rfl
      | ok mn =>
        simp only [bind, Except.bind]
        split
        · exact filter_gt h _
        · exact ⟨c, rfl, .refl h⟩
  · exact ⟨c, rfl, .refl h⟩

example : (setMinWeightRatio exCom (3 / 10)).map (fun c => (c.ws.weights, c.offsets)) = .ok (some [2, 4, 2], some [0, 1, 3]) ∧
    cutSegs (3 / 10) exSegs = .ok [[⟨[1, 5], 2, 10⟩], [⟨[8, 7], 4, 40⟩, ⟨[9, 7], 2, 50⟩]] := by decide +kernel

theorem combined_weightsChanged {c : CH K} {hasL : Bool} {n : Nat} {segs : List (List (Row K))}
    (h : Combined c hasL n segs) : Combined { c with ws := weightsChanged c.ws } hasL n segs :=
  ⟨h.chains, h.offsets, rep_weightsChanged h.ws⟩

/-- storing new arrays with unchanged chain lengths -/
theorem setSamples_segs {c : CH K} (hc : c.chains = none) (hasL : Bool) (n : Nat) (segs : List (List (Row K)))
    (ho : c.offsets = some (starts 0 (segs.map List.length))) :
    Ag (CombinedAs c hasL n) (setSamples c ⟨n, segs.flatten.map (·.sample)⟩ (some (segs.flatten.map (·.weight)))
      (if hasL then some (segs.flatten.map (·.loglike)) else none)) (autoCutSegs c.ws.minWeightRatio segs) := by
  unfold setSamples autoCutSegs
  set c0 : CH K := { c with
    ws := assign c.ws ⟨n, segs.flatten.map (·.sample)⟩ (some (segs.flatten.map (·.weight)))
            (if hasL then some (segs.flatten.map (·.loglike)) else none) } with hc0
  have hcomb : Combined c0 hasL n segs := ⟨hc, ho, by constructor <;> simp [hc0, assign, Function.comp_def]⟩
  have hratio : c0.ws.minWeightRatio = c.ws.minWeightRatio := rfl
  have fin : ∀ (c1 : CH K) segs1, CombinedAs c0 hasL n c1 segs1 →
      Ag (CombinedAs c hasL n) (pure { c1 with ws := weightsChanged c1.ws }) (Except.ok segs1 : Except NErr _) := by
    intro c1 segs1 h1
    exact ⟨_, rfl, combined_weightsChanged h1.1, by rw [ratio_weightsChanged]; exact h1.2.1, h1.2.2.1, h1.2.2.2⟩
  dsimp only
  rw [hratio]
  cases hr : c.ws.minWeightRatio with
  | none => exact fin c0 segs (.refl hcomb)
  | some r =>
    simp only []
    by_cases h0 : 0 ≤ r
    · rw [if_pos h0]
      have := Ag.bind (setMinWeight_segs hcomb r) fin
      refine this.of_eq ?_
      cases cutSegs r segs <;> rfl
    · rw [if_neg h0]
      have : cutSegs r segs = .ok segs := by unfold cutSegs; rw [if_neg h0]
      rw [this]
      exact fin c0 segs (.refl hcomb)

/-! ### weighted thinning -/

/-- weighted thinning of one chain -/
def thinSeg (f : K) (rows : List (Row K)) : Except NErr (List (Row K)) := do
  let ix ← allSome (← thinIndices f (rows.map (·.weight)))
  let kept ← gather rows (unique ix)
  pure (List.zipWith (fun r i => { r with weight := (ix.count i : K) }) kept (unique ix))

theorem weightedThin_ag {s : WS K} {ratio : Option K} {hasL : Bool} {n : Nat} {rows : List (Row K)}
    (h : Rep s hasL n rows ∧ s.minWeightRatio = ratio) (f : K) :
    Ag (fun s' kept => Rep s' hasL n kept ∧ s'.minWeightRatio = ratio) (Samples.weightedThin s f) (thinSeg f rows) := by
  have := weightedThin_agrees (fun x => x) True h.1 (fun x => x) ratio f
  have e : specStep (fun x => x) ratio hasL n rows (.weightedThin f) = (do pure (n, ← thinSeg f rows)) := by
    unfold thinSeg specStep
    simp only [bind, Except.bind]
    generalize thinIndices f (rows.map (·.weight)) = a
    cases a with
    | error e => rfl
    | ok oix =>
      dsimp only
      generalize allSome oix = b
      cases b with
      | error e => rfl
      | ok ix =>
        dsimp only
        cases gather rows (unique ix) <;> rfl
  rw [e] at this
  cases ht : thinSeg f rows with
  | error e => rw [ht] at this; exact this
  | ok kept =>
    rw [ht] at this
    obtain ⟨s', h1, h2, h3, -⟩ := this
    exact ⟨s', h1, h2, h3.trans h.2⟩

theorem hold_mapM {ratio : Option K} {hasL : Bool} {n : Nat} {cs : List (WS K)} {segs : List (List (Row K))}
    (h : Hold ratio hasL n cs segs) {f : WS K → Except NErr (WS K)} {g : List (Row K) → Except NErr (List (Row K))}
    {ratio' : Option K} {n' : Nat}
    (hf : ∀ s seg, Rep s hasL n seg ∧ s.minWeightRatio = ratio →
      Ag (fun s' kept => Rep s' hasL n' kept ∧ s'.minWeightRatio = ratio') (f s) (g seg)) :
    Ag (Hold ratio' hasL n') (cs.mapM f) (segs.mapM g) :=
  mapM_ag (h.imp (fun s seg hs => hf s seg hs))

theorem hold_length {ratio : Option K} {hasL : Bool} {n : Nat} {cs : List (WS K)} {segs : List (List (Row K))}
    (h : Hold ratio hasL n cs segs) : cs.length = segs.length := List.Forall₂.length_eq h

/-- the result of an operation on separate chains -/
def SeparateAs (c : CH K) (ratio : Option K) (hasL : Bool) (n : Nat) (c' : CH K) (segs : List (List (Row K))) : Prop :=
  Separate c' ratio hasL n segs ∧ c'.ws.minWeightRatio = c.ws.minWeightRatio ∧ c'.names = c.names ∧ c'.index = c.index

theorem mapM_length {ε α β : Type} {f : α → Except ε β} {l : List α} {r : List β} (h : l.mapM f = .ok r) :
    r.length = l.length := by
  induction l generalizing r with
  | nil => cases h; rfl
  | cons a l ih =>
    rw [List.mapM_cons] at h
    cases hf : f a with
    | error e => rw [hf] at h; cases h
    | ok b =>
      rw [hf] at h
      simp only [bind, Except.bind] at h
      cases hm : l.mapM f with
      | error e => rw [hm] at h; cases h
      | ok bs => rw [hm] at h; cases h; simp [ih hm]

/-- **C20** weighted thinning of separate chains thins every chain on its own -/
theorem weightedThin_separate {c : CH K} {ratio : Option K} {hasL : Bool} {n : Nat} {segs : List (List (Row K))}
    (h : Separate c ratio hasL n segs) (hne : segs ≠ []) (f : K) :
    Ag (SeparateAs c ratio hasL n) (weightedThin c f) (segs.mapM (thinSeg f)) := by
  obtain ⟨⟨cs, hcs, hold⟩, hs⟩ := h
  have hcne : cs ≠ [] := by
    intro h0; have := hold_length hold; rw [h0] at this; exact hne (List.length_eq_zero_iff.1 this.symm)
  have he : cs.isEmpty = false := by cases cs <;> simp_all
  unfold weightedThin getSeparateChains
  rw [hcs]
  simp only [Option.getD_some, he, Bool.false_eq_true, false_and, if_false, Bool.not_false, if_true]
  have hm := hold_mapM hold (fun s seg hs => weightedThin_ag hs f)
  have := Ag.bind (R' := SeparateAs c ratio hasL n) (f := fun cs => pure { c with chains := some cs })
    (g := fun segs => .ok segs) hm
    (fun cs' segs' h' => ⟨_, rfl, ⟨⟨cs', rfl, h'⟩, hs⟩, rfl, rfl, rfl⟩)
  refine this.of_eq ?_
  cases segs.mapM (thinSeg f) <;> rfl

example : Ag (SeparateAs exSep defaultRatio true 2) (weightedThin exSep 2) (exSegs.mapM (thinSeg 2)) :=
  weightedThin_separate exSep_separate (by decide) 2

/-- **C20** weighted thinning of combined chains splits them, thins every chain on its own and combines them again -/
theorem weightedThin_combined {c : CH K} {n : Nat} {segs : List (List (Row K))}
    (h : Combined c true n segs) (hne : segs ≠ []) (f : K) :
    Ag (fun c' segs' => Combined c' true n segs' ∧ c'.ws.minWeightRatio = c.ws.minWeightRatio ∧ c'.names = c.names)
      (weightedThin c f) (do (← segs.mapM (autoCut defaultRatio)).mapM (thinSeg f)) := by
  have hsep := getSeparate_agrees h
  unfold weightedThin
  rw [h.chains, h.offsets]
  simp only [Option.getD_none, List.isEmpty_nil, reduceCtorEq, and_false, if_false, Bool.not_true, Bool.false_eq_true]
  have fin : ∀ (cs2 : List (WS K)) segs2, Hold defaultRatio true n cs2 segs2 → segs2 ≠ [] →
      Ag (fun c' segs' => Combined c' true n segs' ∧ c'.ws.minWeightRatio = c.ws.minWeightRatio ∧ c'.names = c.names)
        (makeSingle { c with chains := some cs2 }) (Except.ok segs2 : Except NErr _) := by
    intro cs2 segs2 h2 hne2
    have hms : makeSingle { c with chains := some cs2 } =
        (makeSingle { c with chains := some cs2, ws := { c.ws with samples := none } }) := by
      cases cs2 with
      | nil => rfl
      | cons s cs2 => simp [makeSingle, setSamplesRaw, assign]
    rw [hms]
    obtain ⟨c', g1, g2, g3, g4⟩ := makeSingle_combined
      (c := { c with chains := some cs2, ws := { c.ws with samples := none } }) ⟨⟨cs2, rfl, h2⟩, rfl⟩ hne2
    exact ⟨c', g1, g2, g3, g4⟩
  cases hk : segs.mapM (autoCut defaultRatio) with
  | error e =>
    rw [hk] at hsep
    have hsep : getSeparateChains c = .error e := hsep
    rw [hsep]; rfl
  | ok kept =>
    rw [hk] at hsep
    obtain ⟨cs, h1, h2⟩ := hsep
    rw [h1]
    simp only [bind, Except.bind]
    have hm := hold_mapM h2 (fun s seg hs => weightedThin_ag hs f)
    cases ht : kept.mapM (thinSeg f) with
    | error e =>
      rw [ht] at hm
      have hm : cs.mapM (fun s => Samples.weightedThin s f) = .error e := hm
      rw [hm]; rfl
    | ok segs2 =>
      rw [ht] at hm
      obtain ⟨cs2, g1, g2⟩ := hm
      rw [g1]
      refine fin cs2 segs2 g2 ?_
      intro h0
      have l1 := mapM_length ht
      have l2 := mapM_length hk
      rw [h0] at l1
      exact hne (List.length_eq_zero_iff.1 (by rw [← l2, ← l1]; rfl))

example : Ag (fun c' segs' => Combined c' true 2 segs' ∧ c'.ws.minWeightRatio = exCom.ws.minWeightRatio ∧ c'.names = exCom.names)
    (weightedThin exCom 2) (do (← exSegs.mapM (autoCut defaultRatio)).mapM (thinSeg 2)) :=
  weightedThin_combined exCom_combined (by decide) 2


/-! ### burn in -/

theorem roundHalfEven_spec [IsStrictOrderedRing K] (x : K) :
    |(roundHalfEven x : K) - x| ≤ 1 / 2 ∧ (|(roundHalfEven x : K) - x| = 1 / 2 → Even (roundHalfEven x)) := by
  have h1 := Int.floor_le x
  have h2 := Int.lt_floor_add_one x
  unfold roundHalfEven
  simp only []
  split
  · rename_i h
    rw [abs_sub_comm, abs_of_nonneg (by linarith)]
    exact ⟨by linarith, fun h' => by linarith⟩
  · split
    · rename_i _ h
      push_cast
      rw [abs_of_nonneg (by linarith)]
      exact ⟨by linarith, fun h' => by linarith⟩
    · rename_i ha hb
      have hx : x = ⌊x⌋ + 1 / 2 := by linarith
      split
      · rename_i he
        rw [abs_sub_comm, abs_of_nonneg (by linarith)]
        exact ⟨by linarith, fun _ => Int.even_iff.2 he⟩
      · rename_i he
        push_cast
        rw [abs_of_nonneg (by linarith)]
        refine ⟨by linarith, fun _ => ?_⟩
        rw [Int.even_iff]; omega

/-- number of rows a burn in of `f` should drop from a chain of `n` rows: `f` rows rounded down if `f ≥ 1`, otherwise
the fraction `f` of the rows, rounded to the nearest integer, ties to even -/
def Dropped (n : Nat) (f : K) (k : Nat) : Prop :=
  if 1 ≤ f then (k : Int) = ⌊f⌋ else |(k : K) - n * f| ≤ 1 / 2 ∧ (|(k : K) - n * f| = 1 / 2 → Even k)

/-- the number of dropped rows is determined -/
theorem dropped_unique [IsStrictOrderedRing K] {n : Nat} {f : K} {k l : Nat} (hk : Dropped n f k) (hl : Dropped n f l) :
    k = l := by
  unfold Dropped at hk hl
  split at hk
  · rename_i h; rw [if_pos h] at hl; omega
  · rename_i h
    rw [if_neg h] at hl
    obtain ⟨hk1, hk2⟩ := hk
    obtain ⟨hl1, hl2⟩ := hl
    by_contra hne
    wlog hlt : k < l generalizing k l
    · exact this hl1 hl2 hk1 hk2 (Ne.symm hne) (by omega)
    have hcast : (k : K) + 1 ≤ l := by exact_mod_cast hlt
    have a1 := abs_le.1 hk1
    have a2 := abs_le.1 hl1
    have e1 : (l : K) - n * f = 1 / 2 := by linarith
    have e2 : (k : K) - n * f = - (1 / 2) := by linarith
    have ek := hk2 (by rw [e2, abs_neg, abs_of_nonneg (by norm_num)])
    have el := hl2 (by rw [e1, abs_of_nonneg (by norm_num)])
    have : (l : K) = k + 1 := by linarith
    have : l = k + 1 := by exact_mod_cast this
    rw [this] at el
    exact (Nat.even_add_one.1 el) ek

/-- three tenths of five rows are two rows (ties to even), three of them as a number of rows -/
example : Dropped 5 (3 / 10 : ℚ) 2 ∧ Dropped 5 (3 : ℚ) 3 := by
  refine ⟨?_, ?_⟩ <;> unfold Dropped <;> norm_num

theorem burnRows_dropped [IsStrictOrderedRing K] (n : Nat) {f : K} (hf : 0 ≤ f) :
    0 ≤ burnRows n f ∧ Dropped n f (burnRows n f).toNat := by
  unfold burnRows Dropped
  by_cases h1 : 1 ≤ f
  · have ht : trunc f = ⌊f⌋ := by unfold trunc; rw [if_pos hf]
    have h0 : 0 ≤ ⌊f⌋ := Int.floor_nonneg.2 hf
    rw [if_pos h1, if_pos h1, ht]
    exact ⟨h0, Int.toNat_of_nonneg h0⟩
  · rw [if_neg h1, if_neg h1]
    obtain ⟨ha, hb⟩ := roundHalfEven_spec ((n : K) * f)
    have hx : 0 ≤ (n : K) * f := by positivity
    have h0 : 0 ≤ roundHalfEven ((n : K) * f) := by
      have := (abs_le.1 ha).1
      have h : (-1 : K) < roundHalfEven ((n : K) * f) := by linarith
      have : (-1 : Int) < roundHalfEven ((n : K) * f) := by exact_mod_cast h
      omega
    have hc : (((roundHalfEven ((n : K) * f)).toNat : Nat) : K) = (roundHalfEven ((n : K) * f) : K) := by
      exact_mod_cast congrArg (Int.cast : Int → K) (Int.toNat_of_nonneg h0)
    refine ⟨h0, ?_, ?_⟩
    · rw [hc]; exact ha
    · intro h
      rw [hc] at h
      have := hb h
      rw [← Int.toNat_of_nonneg h0] at this
      exact_mod_cast this

/-- burn in of one chain with the automatic cut -/
def burnSeg (ratio : Option K) (f : K) (seg : List (Row K)) : Except NErr (List (Row K)) :=
  autoCut ratio (sliceFrom seg (burnRows seg.length f))

theorem removeBurn_ag {s : WS K} {ratio : Option K} {hasL : Bool} {n : Nat} {rows : List (Row K)}
    (h : Rep s hasL n rows ∧ s.minWeightRatio = ratio) (f : K) :
    Ag (fun s' kept => Rep s' hasL n kept ∧ s'.minWeightRatio = ratio) (Samples.removeBurn s f) (burnSeg ratio f rows) := by
  have := removeBurn_agrees (fun x => x) True h.1 (fun x => x) f
  rw [h.2] at this
  unfold burnSeg
  simp only [specStep, Agrees] at this
  cases hb : autoCut ratio (sliceFrom rows (burnRows rows.length f)) with
  | error e => rw [hb] at this; exact this
  | ok kept =>
    rw [hb] at this
    obtain ⟨s', h1, h2, h3, -⟩ := this
    exact ⟨s', h1, h2, h3.trans h.2⟩

theorem removeBurn_separate {c : CH K} {ratio : Option K} {hasL : Bool} {n : Nat} {segs : List (List (Row K))}
    (h : Separate c ratio hasL n segs) (f : K) :
    Ag (SeparateAs c ratio hasL n) (removeBurnFraction c f) (segs.mapM (burnSeg ratio f)) := by
  obtain ⟨⟨cs, hcs, hold⟩, hs⟩ := h
  unfold removeBurnFraction
  rw [hcs, hs]
  have hm := hold_mapM hold (fun s seg hs => removeBurn_ag hs f)
  have := Ag.bind (R' := SeparateAs c ratio hasL n) (f := fun cs => pure { c with chains := some cs })
    (g := fun segs => .ok segs) hm
    (fun cs' segs' h' => ⟨_, rfl, ⟨⟨cs', rfl, h'⟩, hs⟩, rfl, rfl, rfl⟩)
  refine this.of_eq ?_
  cases segs.mapM (burnSeg ratio f) <;> rfl

/-- **C21** removing a burn in from separate chains drops exactly the stated number of leading rows of each chain -/
theorem burn_each_chain [IsStrictOrderedRing K] {c : CH K} {hasL : Bool} {n : Nat} {segs : List (List (Row K))}
    (h : Separate c defaultRatio hasL n segs) {f : K} (hf : 0 ≤ f) :
    ∃ k : Nat → Nat, (∀ len, Dropped len f (k len)) ∧
      ((∀ seg ∈ segs, NoCut (seg.drop (k seg.length))) →
        ∃ c', removeBurnFraction c f = .ok c' ∧
          Separate c' defaultRatio hasL n (segs.map (fun seg => seg.drop (k seg.length)))) := by
  refine ⟨fun len => (burnRows len f).toNat, fun len => (burnRows_dropped len hf).2, ?_⟩
  intro hno
  have := removeBurn_separate h f
  have e : segs.mapM (burnSeg defaultRatio f) = .ok (segs.map (fun seg => seg.drop (burnRows seg.length f).toNat)) := by
    apply mapM_ok
    intro seg hs
    unfold burnSeg sliceFrom
    rw [if_pos (burnRows_dropped seg.length hf).1]
    exact autoCut_noCut (hno seg hs)
  rw [e] at this
  obtain ⟨c', h1, h2, -⟩ := this
  exact ⟨c', h1, h2⟩

example : (removeBurnFraction exSep (1 / 3)).map (fun c => c.chains.map (fun l => l.map (·.samples))) =
    .ok (some [some ⟨2, [[3, 5], [4, 6]]⟩, some ⟨2, [[9, 7]]⟩]) := by decide +kernel

/-- **C21** without a condition on the weights: every chain loses its stated leading rows, and of the others only those that the
automatic weight cut (the setting `ratio`) removes -/
theorem burn_each_chain_cut [IsStrictOrderedRing K] {c : CH K} {ratio : Option K} {hasL : Bool} {n : Nat}
    {segs : List (List (Row K))} (h : Separate c ratio hasL n segs) {f : K} (hf : 0 ≤ f) :
    ∃ k : Nat → Nat, (∀ len, Dropped len f (k len)) ∧
      Ag (SeparateAs c ratio hasL n) (removeBurnFraction c f) (segs.mapM (fun seg => autoCut ratio (seg.drop (k seg.length)))) := by
  refine ⟨fun len => (burnRows len f).toNat, fun len => (burnRows_dropped len hf).2, ?_⟩
  have e : (burnSeg ratio f) = fun seg => autoCut ratio (seg.drop (burnRows seg.length f).toNat) := by
    funext seg
    unfold burnSeg sliceFrom
    rw [if_pos (burnRows_dropped seg.length hf).1]
  have := removeBurn_separate h f
  rw [e] at this
  exact this

example : ∃ k : Nat → Nat, (∀ len, Dropped len (1 : ℚ) (k len)) ∧
    Ag (SeparateAs exSep defaultRatio true 2) (removeBurnFraction exSep 1) (exSegs.mapM (fun seg => autoCut defaultRatio (seg.drop (k seg.length)))) :=
  burn_each_chain_cut exSep_separate (by decide)

/-! ### operations that act on the combined arrays only -/

theorem filter_ws (c : CH K) (hc : c.chains = none) (wh : Where) :
    (filter c wh).map (·.ws) = Samples.filter c.ws wh ∧ ∀ c', filter c wh = .ok c' → c'.chains = none ∧ c'.names = c.names := by
  unfold filter
  rw [hc]
  cases Samples.filter c.ws wh with
  | error e => exact ⟨rfl, fun _ h => by cases h⟩
  | ok s => exact ⟨rfl, fun _ h => by cases h; exact ⟨rfl, rfl⟩⟩

theorem setMin_ws (c : CH K) (hc : c.chains = none) (r : K) :
    (setMinWeightRatio c r).map (·.ws) = Samples.setMinWeightRatio c.ws r ∧
      ∀ c', setMinWeightRatio c r = .ok c' → c'.chains = none ∧ c'.names = c.names := by
  unfold setMinWeightRatio Samples.setMinWeightRatio
  cases c.ws.weights with
  | none => exact ⟨rfl, fun _ h => by cases h; exact ⟨hc, rfl⟩⟩
  | some w =>
    dsimp only
    split
    · cases max? w with
      | error e => exact ⟨rfl, fun _ h => by cases h⟩
      | ok mx =>
        cases min? w with
        | error e => exact ⟨rfl, fun _ h => by cases h⟩
        | ok mn =>
          simp only [bind, Except.bind]
          split
          · exact filter_ws c hc _
          · exact ⟨rfl, fun _ h => by cases h; exact ⟨hc, rfl⟩⟩
    · exact ⟨rfl, fun _ h => by cases h; exact ⟨hc, rfl⟩⟩

theorem setSamples_ws (c : CH K) (hc : c.chains = none) (a : Arr2 K) (w l : Option (List K)) :
    (setSamples c a w l).map (·.ws) = Samples.setSamples c.ws a w l ∧
      ∀ c', setSamples c a w l = .ok c' → c'.chains = none ∧ c'.names = c.names := by
  unfold setSamples Samples.setSamples
  set c0 : CH K := { c with ws := assign c.ws a w l } with hc0
  have hw0 : c0.ws = assign c.ws a w l := rfl
  have h0 : c0.chains = none := hc
  dsimp only
  rw [hw0]
  cases (assign c.ws a w l).minWeightRatio with
  | none => exact ⟨rfl, fun _ h => by cases h; exact ⟨hc, rfl⟩⟩
  | some r =>
    dsimp only
    split
    · obtain ⟨h1, h2⟩ := setMin_ws c0 h0 r
      rw [hw0] at h1
      rw [← h1]
      cases hs : setMinWeightRatio c0 r with
      | error e => exact ⟨rfl, fun _ h => by cases h⟩
      | ok c1 => exact ⟨rfl, fun _ h => by cases h; exact h2 c1 hs⟩
    · exact ⟨rfl, fun _ h => by cases h; exact ⟨hc, rfl⟩⟩

theorem setSamples_update (c : CH K) (a : Arr2 K) (w l : Option (List K)) {c' : CH K} (h : setSamples c a w l = .ok c') :
    c'.ws.needsUpdate = true := by
  unfold setSamples at h
  dsimp only at h
  have : ∀ (r : Except NErr (CH K)), (r >>= fun c => pure { c with ws := weightsChanged c.ws }) = .ok c' →
      c'.ws.needsUpdate = true := by
    intro r hr
    cases r with
    | error e => cases hr
    | ok c1 => cases hr; rfl
  split at h
  · exact this _ h
  · split at h
    · exact this _ h
    · exact this _ h

/-- **C21 (combined)** the rows of combined chains after burn in removal are those of the inherited `removeBurn`: the
leading rows of the whole array are dropped.  The boundaries are not updated (`burn_combined_fails`). -/
theorem burn_combined_rows_partial (c : CH K) (hc : c.chains = none) (hs : c.ws.samples.isSome) (f : K) :
    (removeBurnFraction c f).map (·.ws) = Samples.removeBurn c.ws f := by
  obtain ⟨a, ha⟩ := Option.isSome_iff_exists.1 hs
  obtain ⟨ws, chains, offs, names, index⟩ := c
  obtain ⟨w, l, smp, n, numrows, norm, means, ml, diffs, fc, cm, vars, sd, nu, mr⟩ := ws
  simp only at ha hc
  subst ha hc
  unfold removeBurnFraction removeBurn Samples.removeBurn changeSamples Samples.changeSamples
  dsimp only
  rw [← (setSamples_ws ⟨_, none, offs, names, index⟩ rfl _ _ _).1]
  generalize setSamples (K := K) _ _ _ _ = r
  cases r <;> rfl

example : (removeBurnFraction exCom 1).map (fun c => c.ws.samples) = .ok (some ⟨2, [[3, 5], [4, 6], [8, 7], [9, 7]]⟩) := by decide +kernel

/-! ### reweighting combined chains -/

/-- cut a list of numbers at the chain boundaries and combine each part with its chain -/
def zipSegs {α β γ : Type} (f : α → β → γ) : List (List α) → List β → List (List γ)
  | [], _ => []
  | s :: ss, b => List.zipWith f s (b.take s.length) :: zipSegs f ss (b.drop s.length)

theorem zipSegs_flatten {α β γ : Type} (f : α → β → γ) (segs : List (List α)) (b : List β)
    (h : segs.flatten.length = b.length) :
    List.zipWith f segs.flatten b = (zipSegs f segs b).flatten ∧
      (zipSegs f segs b).map List.length = segs.map List.length := by
  induction segs generalizing b with
  | nil => simp [zipSegs]
  | cons s ss ih =>
    simp only [List.flatten_cons, List.length_append] at h
    obtain ⟨h1, h2⟩ := ih (b.drop s.length) (by rw [List.length_drop]; omega)
    simp only [List.flatten_cons, zipSegs, List.map_cons, h2]
    constructor
    · rw [← h1]
      conv_lhs => rw [← List.take_append_drop s.length b]
      rw [List.zipWith_append (by rw [List.length_take]; omega)]
    · congr 1
      rw [List.length_zipWith, List.length_take]; omega

/-- reweighting of a list of chains -/
def reweightSegs (exp : K → K) (segs : List (List (Row K))) (ll : List K) : Except NErr (List (List (Row K))) := do
  let scale ← min? ll
  let b ← broadcast ll segs.flatten.length
  pure (zipSegs (fun r b => { r with weight := r.weight * exp (-(b - scale)), loglike := r.loglike + b }) segs b)

theorem reweight_segs (exp : K → K) {c : CH K} {hasL : Bool} {n : Nat} {segs : List (List (Row K))}
    (h : Combined c hasL n segs) (ll : List K) :
    Ag (CombinedAs c hasL n) (reweight exp c ll) (reweightSegs exp segs ll) := by
  have := reweight_agrees (fun x => x) True h.ws exp none ll
  unfold reweight reweightSegs
  simp only [specStep, Agrees] at this
  cases hm : min? ll with
  | error e =>
    rw [hm] at this
    have this : Samples.reweight exp c.ws ll = .error e := this
    simp only [Ag, bind, Except.bind, this]
  | ok scale =>
    rw [hm] at this
    simp only [bind, Except.bind] at this ⊢
    cases hb : broadcast ll segs.flatten.length with
    | error e =>
      rw [hb] at this
      have this : Samples.reweight exp c.ws ll = .error e := this
      simp only [Ag, this]
    | ok b =>
      rw [hb] at this
      obtain ⟨s', h1, h2, h3, -⟩ := this
      obtain ⟨e1, e2⟩ := zipSegs_flatten (fun (r : Row K) b =>
        ({ r with weight := r.weight * exp (-(b - scale)), loglike := r.loglike + b } : Row K)) segs b
        (broadcast_length hb).symm
      rw [h1]
      refine ⟨_, rfl, ⟨h.chains, ?_, ?_⟩, h3, rfl, rfl⟩
      · rw [e2]; exact h.offsets
      · rw [← e1]; exact h2

/-- cooling of a list of chains -/
def coolSegs (exp : K → K) (segs : List (List (Row K))) (x : K) : Except NErr (List (List (Row K))) := do
  let m ← max? (segs.flatten.map (·.loglike))
  pure (segs.map (List.map (fun r => { r with
    weight := r.weight * exp (-(r.loglike * x - r.loglike) - m * (1 - x)), loglike := r.loglike * x })))

theorem cool_segs (exp : K → K) {c : CH K} {n : Nat} {segs : List (List (Row K))}
    (h : Combined c true n segs) (x : K) :
    Ag (CombinedAs c true n) (cool exp c x) (coolSegs exp segs x) := by
  have := cool_agrees (fun x => x) True h.ws exp none x
  unfold cool coolSegs
  simp only [specStep, Agrees, if_true] at this
  cases hm : max? (segs.flatten.map (·.loglike)) with
  | error e =>
    rw [hm] at this
    have this : Samples.cool exp c.ws x = .error e := this
    simp only [Ag, bind, Except.bind, this]
  | ok m =>
    rw [hm] at this
    obtain ⟨s', h1, h2, h3, -⟩ := this
    rw [h1]
    refine ⟨_, rfl, ⟨h.chains, ?_, ?_⟩, h3, rfl, rfl⟩
    · simpa [Function.comp_def] using h.offsets
    · simpa [List.map_flatten] using h2

/-! ### histories -/

/-- operations on a `Chains` object -/
inductive COp (K : Type) where
  | makeSingle
  | filter (m : List Bool)
  | deleteZeros
  | setMinWeightRatio (r : K)
  | weightedThin (f : K)
  | reweight (ll : List K)
  | cool (x : K)
  | removeBurnFraction (f : K)

def cstep (exp : K → K) (c : CH K) : COp K → Except NErr (CH K)
  | .makeSingle => makeSingle c
  | .filter m => filter c (.mask m)
  | .deleteZeros => deleteZeros c
  | .setMinWeightRatio r => setMinWeightRatio c r
  | .weightedThin f => weightedThin c f
  | .reweight ll => reweight exp c ll
  | .cool x => cool exp c x
  | .removeBurnFraction f => removeBurnFraction c f

def crun (exp : K → K) : CH K → List (COp K) → Except NErr (CH K)
  | c, [] => .ok c
  | c, op :: ops => do crun exp (← cstep exp c op) ops

/-- histories covered by the specification: chains are separate at first; the array operations need combined chains,
burn in is removed while the chains are separate -/
def covered : Bool → List (COp K) → Bool
  | _, [] => true
  | true, .makeSingle :: ops => covered false ops
  | true, .weightedThin _ :: ops => covered true ops
  | true, .removeBurnFraction _ :: ops => covered true ops
  | true, _ => false
  | false, .makeSingle :: _ => false
  | false, .removeBurnFraction _ :: _ => false
  | false, _ :: ops => covered false ops

/-- what each operation should do to the list of chains (`sep`: the chains are separate) -/
def sstep (exp : K → K) (ratio : Option K) (sep : Bool) (segs : List (List (Row K))) :
    COp K → Except NErr (List (List (Row K)))
  | .makeSingle => .ok segs
  | .filter m => if segs.flatten.length = m.length then .ok (maskSegs segs m) else .error .indexError
  | .deleteZeros => .ok (segs.map (List.filter (fun r => decide (0 < r.weight))))
  | .setMinWeightRatio r => cutSegs r segs
  | .weightedThin f => if sep then segs.mapM (thinSeg f) else do (← segs.mapM (autoCut defaultRatio)).mapM (thinSeg f)
  | .reweight ll => reweightSegs exp segs ll
  | .cool x => coolSegs exp segs x
  | .removeBurnFraction f => segs.mapM (burnSeg ratio f)

/-- are the chains separate after the operation -/
def modeAfter (sep : Bool) : COp K → Bool
  | .makeSingle => false
  | _ => sep

def srun (exp : K → K) (ratio : Option K) : Bool → List (List (Row K)) → List (COp K) → Except NErr (List (List (Row K)))
  | _, segs, [] => .ok segs
  | sep, segs, op :: ops => do
    srun exp ratio (modeAfter sep op) (← sstep exp ratio sep segs op) ops

theorem maskSegs_length {α : Type} (segs : List (List α)) (m : List Bool) : (maskSegs segs m).length = segs.length := by
  induction segs generalizing m with
  | nil => rfl
  | cons s ss ih => simp [maskSegs, ih]

theorem zipSegs_length {α β γ : Type} (f : α → β → γ) (segs : List (List α)) (b : List β) :
    (zipSegs f segs b).length = segs.length := by
  induction segs generalizing b with
  | nil => rfl
  | cons s ss ih => simp [zipSegs, ih]

/-- the number of chains never changes -/
theorem sstep_length (exp : K → K) (ratio : Option K) (sep : Bool) {segs segs' : List (List (Row K))} (op : COp K)
    (h : sstep exp ratio sep segs op = .ok segs') : segs'.length = segs.length := by
  cases op with
  | makeSingle => cases h; rfl
  | filter m =>
    simp only [sstep] at h
    split at h
    · cases h; exact maskSegs_length _ _
    · cases h
  | deleteZeros => cases h; simp
  | setMinWeightRatio r =>
    simp only [sstep, cutSegs] at h
    split at h
    · split at h
      · cases h; split <;> simp
      · cases h
    · cases h; rfl
  | weightedThin f =>
    simp only [sstep] at h
    split at h
    · exact mapM_length h
    · cases hk : segs.mapM (autoCut (defaultRatio : Option K)) with
      | error e => rw [hk] at h; cases h
      | ok kept => rw [hk] at h; rw [mapM_length h, mapM_length hk]
  | reweight ll =>
    simp only [sstep, reweightSegs] at h
    cases hm : min? ll with
    | error e => rw [hm] at h; cases h
    | ok s =>
      rw [hm] at h
      simp only [bind, Except.bind] at h
      cases hb : broadcast ll segs.flatten.length with
      | error e => rw [hb] at h; cases h
      | ok b => rw [hb] at h; cases h; exact zipSegs_length _ _ _
  | cool x =>
    simp only [sstep, coolSegs] at h
    cases hm : max? (segs.flatten.map (·.loglike)) with
    | error e => rw [hm] at h; cases h
    | ok m => rw [hm] at h; cases h; simp
  | removeBurnFraction f => exact mapM_length h

/-- **C57** histories: chains stay apart.  For every history of combining, masking, thinning, weight cuts, reweighting,
cooling and burn in removal, the outcome is that of the same history on a list of separate record lists. -/
theorem history_segs (exp : K → K) (ratio : Option K) (n : Nat) : ∀ (ops : List (COp K)) (sep : Bool) (c : CH K)
    (segs : List (List (Row K))), covered sep ops = true → segs ≠ [] →
    (if sep then Separate c ratio true n segs else Combined c true n segs) →
    Ag (fun c' segs' => Separate c' ratio true n segs' ∨ Combined c' true n segs') (crun exp c ops)
      (srun exp ratio sep segs ops) := by
  intro ops
  induction ops with
  | nil =>
    intro sep c segs _ _ h
    refine ⟨c, rfl, ?_⟩
    cases sep
    · exact Or.inr h
    · exact Or.inl h
  | cons op ops ih =>
    intro sep c segs hcov hne h
    have next : ∀ (sep' : Bool) (R : CH K → List (List (Row K)) → Prop),
        Ag R (cstep exp c op) (sstep exp ratio sep segs op) →
        (∀ c' segs', R c' segs' → if sep' then Separate c' ratio true n segs' else Combined c' true n segs') →
        covered sep' ops = true → sep' = modeAfter sep op →
        Ag (fun c' segs' => Separate c' ratio true n segs' ∨ Combined c' true n segs') (crun exp c (op :: ops))
          (srun exp ratio sep segs (op :: ops)) := by
      intro sep' R hR himp hc hs
      unfold crun srun
      rw [← hs]
      cases hsp : sstep exp ratio sep segs op with
      | error e =>
        rw [hsp] at hR
        have hR : cstep exp c op = .error e := hR
        rw [hR]; rfl
      | ok segs' =>
        rw [hsp] at hR
        obtain ⟨c', h1, h2⟩ := hR
        rw [h1]
        have hl := sstep_length exp ratio sep op hsp
        refine ih sep' c' segs' hc ?_ (himp _ _ h2)
        intro h0
        rw [h0] at hl
        exact hne (List.length_eq_zero_iff.1 hl.symm)
    cases sep with
    | true =>
      have h : Separate c ratio true n segs := h
      cases op with
      | makeSingle =>
        obtain ⟨c', h1, h2, -, -⟩ := makeSingle_combined h hne
        exact next false (fun c' segs' => Combined c' true n segs') ⟨c', h1, h2⟩ (fun _ _ h => h) hcov rfl
      | weightedThin f =>
        exact next true _ (weightedThin_separate h hne f) (fun _ _ h => h.1) hcov rfl
      | removeBurnFraction f =>
        exact next true _ (removeBurn_separate h f) (fun _ _ h => h.1) hcov rfl
      | filter m => cases hcov
      | deleteZeros => cases hcov
      | setMinWeightRatio r => cases hcov
      | reweight ll => cases hcov
      | cool x => cases hcov
    | false =>
      have h : Combined c true n segs := h
      cases op with
      | makeSingle => cases hcov
      | removeBurnFraction f => cases hcov
      | weightedThin f => exact next false _ (weightedThin_combined h hne f) (fun _ _ h => h.1) hcov rfl
      | filter m => exact next false _ (filter_mask h m) (fun _ _ h => h.1) hcov rfl
      | deleteZeros => exact next false _ (deleteZeros_segs h) (fun _ _ h => h.1) hcov rfl
      | setMinWeightRatio r => exact next false _ (setMinWeight_segs h r) (fun _ _ h => h.1) hcov rfl
      | reweight ll => exact next false _ (reweight_segs exp h ll) (fun _ _ h => h.1) hcov rfl
      | cool x => exact next false _ (cool_segs exp h x) (fun _ _ h => h.1) hcov rfl

example : srun (fun x : ℚ => x) defaultRatio true exSegs [.removeBurnFraction 1, .makeSingle, .filter [true, false, true], .deleteZeros] =
    .ok [[⟨[3, 5], 1, 20⟩], [⟨[9, 7], 2, 50⟩]] ∧
    (crun (fun x : ℚ => x) exSep [.removeBurnFraction 1, .makeSingle, .filter [true, false, true], .deleteZeros]).map (fun c => (c.ws.samples, c.offsets)) =
    .ok (some ⟨2, [[3, 5], [9, 7]]⟩, some [0, 1, 2]) := by decide +kernel

end Verif.Chains
