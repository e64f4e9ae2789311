import Verif.Model.CobayaMemory
import Verif.Props.Cobaya
import Verif.Props.MergeRenames
import Verif.Props.ParamNames
import Verif.Props.CMBFiles

/-!
# Samples handed over by Cobaya (C190, C191)
-/

set_option linter.unusedSectionVars false
set_option linter.unusedSimpArgs false

namespace Verif.Cobaya
open Verif.Py

variable {K : Type}

theorem bind_ok {ε α β : Type} {x : Except ε α} {f : α → Except ε β} {b : β} (h : (x >>= f) = .ok b) : ∃ a, x = .ok a ∧ f a = .ok b := by
  cases x with
  | error e => cases h
  | ok a => exact ⟨a, rfl, h⟩

theorem lift_ok {α : Type} {x : Except Err α} {a : α} (h : lift x = .ok a) : x = .ok a := by
  cases x with
  | error e => cases h
  | ok b => injection h with h; rw [h]

/-- a list of results: one for each element -/
theorem mapM_inv {ε α β : Type} {f : α → Except ε β} : ∀ {l : List α} {r : List β}, l.mapM f = .ok r →
    r.length = l.length ∧ ∀ (n : Nat) (a : α), l[n]? = some a → ∃ b, r[n]? = some b ∧ f a = .ok b
  | [], r, h => by
    rw [List.mapM_nil] at h
    cases h
    exact ⟨rfl, by simp⟩
  | x :: l, r, h => by
    rw [List.mapM_cons] at h
    obtain ⟨b, hb, h⟩ := bind_ok h
    obtain ⟨r', hr', h⟩ := bind_ok h
    cases h
    obtain ⟨h1, h2⟩ := mapM_inv hr'
    refine ⟨by simp [h1], fun n a hn => ?_⟩
    cases n with
    | zero =>
      have : x = a := by simpa using hn
      subst this
      exact ⟨b, rfl, hb⟩
    | succ n => exact h2 n a (by simpa using hn)

section
variable [Field K] [LinearOrder K] [IsStrictOrderedRing K] [FloorRing K]
variable {interval : Str → Option K → Option K → Option (Ext K × Ext K)} {parse : Str → Option K} {pick : List Str → Str}
variable {colls : List (Coll K)} {i : Info K} {ignore : K} {set ini : Option K} {out : Out K}

/-- the steps of a successful call -/
theorem steps (h : fromCobaya interval parse pick colls i ignore set ini = .ok out) :
    ∃ columns d names labels ranges renames sampler c, commonColumns colls = .ok columns ∧ infoParams i = .ok d ∧
      ((columns.drop 2).all (varParams d).contains && (varParams d).all (columns.drop 2).contains) = true ∧
      (columns.drop 2).mapM (memName d) = .ok names ∧ (columns.drop 2).mapM (memLabel d) = .ok labels ∧
      List.mapM (memRange interval parse) d = .ok ranges ∧ (columns.drop 2).mapM (memRenames d) = .ok renames ∧
      colls.mapM (colValues · c!"weight") = .ok out.weights ∧ colls.mapM (colValues · c!"minuslogpost") = .ok out.loglikes ∧
      samplerType i = .ok sampler ∧ out.params = ParamNames.updateRenames pick (setLabels names labels) renames ∧
      ranges.foldlM setOne {} = .ok out.bounds ∧
      construct (some ignore) (some sampler) (rowsSetting (some ignore) set) ini none none = .ok c ∧ out.burn = c.1 ∧ out.sampler = c.2 ∧
      out.samples = colls.map (fun c => c.rows.map (·.drop 2)) ∧ out.label = i.label ∧
      (out.warned = true ↔ ignore ≠ 0 ∧ (i.post.bind (·.skip)).getD 0 ≠ 0) := by
  unfold fromCobaya at h
  obtain ⟨columns, h1, h⟩ := bind_ok h
  obtain ⟨d, h2, h⟩ := bind_ok h
  dsimp only at h
  split at h
  · cases h
  · rename_i h3
    obtain ⟨names, h4, h⟩ := bind_ok h
    obtain ⟨labels, h5, h⟩ := bind_ok h
    obtain ⟨ranges, h6, h⟩ := bind_ok h
    obtain ⟨renames, h7, h⟩ := bind_ok h
    obtain ⟨weights, h8, h⟩ := bind_ok h
    obtain ⟨loglikes, h9, h⟩ := bind_ok h
    obtain ⟨sampler, h10, h⟩ := bind_ok h
    obtain ⟨bounds, h11, h⟩ := bind_ok h
    obtain ⟨c, h12, h⟩ := bind_ok h
    injection h with h
    subst h
    refine ⟨columns, d, names, labels, ranges, renames, sampler, c, h1, lift_ok h2, by simpa using h3, h4, h5, h6, h7, h8, h9, lift_ok h10, rfl, h11, lift_ok h12,
      rfl, rfl, rfl, rfl, by simp⟩

/-- the collections have the same columns, and their parameters are those that are sampled or derived -/
theorem memory_consistent (h : fromCobaya interval parse pick colls i ignore set ini = .ok out) :
    ∃ columns d, infoParams i = .ok d ∧ colls ≠ [] ∧ (∀ c ∈ colls, c.columns = columns) ∧
      ∀ p, p ∈ columns.drop 2 ↔ ∃ x, d.get? p = some x ∧ (isSampled x = true ∨ isDerived x = true) := by
  obtain ⟨columns, d, names, labels, ranges, renames, sampler, c, h1, h2, h3, _⟩ := steps h
  refine ⟨columns, d, h2, ?_, ?_, ?_⟩
  · rintro rfl
    cases h1
  · unfold commonColumns at h1
    cases colls with
    | nil => cases h1
    | cons a l =>
      simp only [] at h1
      split at h1
      · rename_i ha
        injection h1 with h1
        subst h1
        intro c hc
        rcases List.mem_cons.mp hc with rfl | hc
        · rfl
        · exact by simpa using List.all_eq_true.mp ha c hc
      · cases h1
  · have hm : ∀ p, p ∈ varParams d ↔ ∃ x, d.get? p = some x ∧ (isSampled x = true ∨ isDerived x = true) := by
      intro p
      unfold varParams
      rw [List.mem_map]
      constructor
      · rintro ⟨⟨k, x⟩, he, rfl⟩
        rw [List.mem_filter] at he
        exact ⟨x, Dict.get?_of_mem (params_wf i d h2) he.1, by simpa using he.2⟩
      · rintro ⟨x, hx, hs⟩
        exact ⟨(p, x), List.mem_filter.mpr ⟨Dict.mem_of_get? hx, by simpa using hs⟩, rfl⟩
    intro p
    rw [← hm]
    simp only [Bool.and_eq_true, List.all_eq_true, List.contains_iff_mem] at h3
    exact ⟨h3.1 p, h3.2 p⟩

/-- what is refused: no collections, different columns, other parameters than those of the information -/
theorem memory_refused (c : Coll K) (cs : List (Coll K)) (d : Dict Str (PInfo K)) (hd : infoParams i = .ok d) :
    fromCobaya interval parse pick [] i ignore set ini = .error .index ∧
    ((∃ e ∈ cs, e.columns ≠ c.columns) → fromCobaya interval parse pick (c :: cs) i ignore set ini = .error .columns) ∧
    ((∀ e ∈ cs, e.columns = c.columns) → (∃ p, ¬ (p ∈ c.columns.drop 2 ↔ ∃ x, d.get? p = some x ∧ (isSampled x = true ∨ isDerived x = true))) →
      fromCobaya interval parse pick (c :: cs) i ignore set ini = .error .differ) := by
  refine ⟨rfl, ?_, ?_⟩
  · rintro ⟨e, he, hne⟩
    unfold fromCobaya commonColumns
    simp only []
    rw [if_neg]
    · rfl
    · intro ha
      exact hne (by simpa using List.all_eq_true.mp ha e he)
  · rintro hs ⟨p, hp⟩
    cases hr : fromCobaya interval parse pick (c :: cs) i ignore set ini with
    | ok out =>
      exfalso
      obtain ⟨columns, d', h1, _, h2, h3⟩ := memory_consistent hr
      rw [hd] at h1
      injection h1 with h1
      subst h1
      rw [← h2 c (by simp)] at h3
      exact hp (h3 p)
    | error e =>
      unfold fromCobaya at hr
      have hc : commonColumns (c :: cs) = .ok c.columns := by
        unfold commonColumns
        simp only []
        rw [if_pos]
        rw [List.all_eq_true]
        intro e he
        simpa using hs e he
      rw [hc, hd] at hr
      simp only [bind, Except.bind, lift] at hr
      split at hr
      · exact hr.symm ▸ rfl
      · rename_i h3
        exfalso
        apply hp
        have hm : p ∈ varParams d ↔ ∃ x, d.get? p = some x ∧ (isSampled x = true ∨ isDerived x = true) := by
          unfold varParams
          rw [List.mem_map]
          constructor
          · rintro ⟨⟨k, x⟩, he, rfl⟩
            rw [List.mem_filter] at he
            exact ⟨x, Dict.get?_of_mem (params_wf i d hd) he.1, by simpa using he.2⟩
          · rintro ⟨x, hx, hs⟩
            exact ⟨(p, x), List.mem_filter.mpr ⟨Dict.mem_of_get? hx, by simpa using hs⟩, rfl⟩
        rw [← hm]
        have h3' : ((c.columns.drop 2).all (varParams d).contains && (varParams d).all (c.columns.drop 2).contains) = true := by simpa using h3
        simp only [Bool.and_eq_true, List.all_eq_true, List.contains_iff_mem] at h3'
        exact ⟨h3'.1 p, h3'.2 p⟩

/-! ### names, labels, other names -/

theorem ofLine_plain (p : Str) (b : Bool) (h : ParamNames.NameOK p) : ParamNames.ofLine (p ++ if b then c!"*" else []) = .ok { name := p, isDerived := b } := by
  have hn := ParamNames.nameTag_ok (p := { name := p, isDerived := b }) h
  show ParamNames.setFromString {} (ParamNames.nameTag { name := p, isDerived := b }) = _
  rw [ParamNames.setFromString_name (p := { name := p, isDerived := b }) (q := {}) h rfl _ [] (ParamNames.splitWs1_one hn.1 hn.2)]

theorem setLabels_get : ∀ (ps : List ParamNames.Info) (ls : List Str), ps.length = ls.length → ∀ (n : Nat) (p : ParamNames.Info) (l : Str), ps[n]? = some p → ls[n]? = some l →
    (setLabels ps ls)[n]? = some { p with label := l }
  | [], [], _, n, _, _, h, _ => by simp at h
  | [], _ :: _, h, _, _, _, _, _ => by simp at h
  | _ :: _, [], h, _, _, _, _, _ => by simp at h
  | p :: ps, l :: ls, h, 0, q, m, hq, hm => by
    have e1 : p = q := by simpa using hq
    have e2 : l = m := by simpa using hm
    subst e1 e2
    rfl
  | p :: ps, l :: ls, h, n + 1, q, m, hq, hm => setLabels_get ps ls (by simpa using h) n q m (by simpa using hq) (by simpa using hm)

theorem setLabels_length : ∀ (ps : List ParamNames.Info) (ls : List Str), (setLabels ps ls).length = ps.length
  | [], [] => rfl
  | [], _ :: _ => rfl
  | _ :: _, [] => rfl
  | p :: ps, l :: ls => by
    show (setLabels ps ls).length + 1 = ps.length + 1
    rw [setLabels_length ps ls]

/-- the other names of a parameter in the information -/
def otherNames (d : Dict Str (PInfo K)) (p : Str) : List Str := match d.get? p with
  | some (.map f) => f.renames.getD []
  | _ => []

/-- the label of a parameter in the information -/
def labelOf (d : Dict Str (PInfo K)) (p : Str) : Str := match d.get? p with
  | some (.map f) => f.latex.getD p
  | _ => p

/-- is the parameter derived -/
def derivedIn (d : Dict Str (PInfo K)) (p : Str) : Bool := match d.get? p with
  | some x => isDerived x
  | none => false

theorem setLabels_eq {columns : List Str} {d : Dict Str (PInfo K)} {names : List ParamNames.Info} {labels : List Str} (hok : ∀ p ∈ columns, ParamNames.NameOK p)
    (h1 : columns.mapM (memName d) = .ok names) (h2 : columns.mapM (memLabel d) = .ok labels) :
    setLabels names labels = columns.map (fun p => ({ name := p, label := labelOf d p, isDerived := derivedIn d p } : ParamNames.Info)) := by
  obtain ⟨l1, g1⟩ := mapM_inv h1
  obtain ⟨l2, g2⟩ := mapM_inv h2
  apply List.ext_getElem?
  intro n
  rw [List.getElem?_map]
  cases hn : columns[n]? with
  | none =>
    rw [List.getElem?_eq_none_iff] at hn
    rw [Option.map_none, List.getElem?_eq_none_iff, setLabels_length, l1]
    exact hn
  | some p =>
    obtain ⟨q, hq, e1⟩ := g1 n p hn
    obtain ⟨l, hl, e2⟩ := g2 n p hn
    rw [setLabels_get names labels (by rw [l1, l2]) n q l hq hl, Option.map_some]
    congr 1
    unfold memName lookup at e1
    unfold memLabel lookup at e2
    unfold labelOf derivedIn
    cases hx : d.get? p with
    | none => rw [hx] at e1; cases e1
    | some x =>
      rw [hx] at e1 e2
      simp only [bind, Except.bind] at e1 e2
      rw [ofLine_plain p _ (hok p (List.mem_of_getElem? hn))] at e1
      injection e1 with e1
      subst e1
      simp only []
      congr 1
      cases x with
      | val v =>
        cases v with
        | null => injection e2 with e2; exact e2.symm
        | num x => cases e2
        | text s => cases e2
        | fn => cases e2
      | map f => injection e2 with e2; exact e2.symm

theorem renames_eq {columns : List Str} {d : Dict Str (PInfo K)} {renames : ParamNames.Renames} (h : columns.mapM (memRenames d) = .ok renames) :
    renames = columns.map (fun p => (p, otherNames d p)) := by
  obtain ⟨l1, g1⟩ := mapM_inv h
  apply List.ext_getElem?
  intro n
  rw [List.getElem?_map]
  cases hn : columns[n]? with
  | none =>
    rw [List.getElem?_eq_none_iff] at hn
    rw [Option.map_none, List.getElem?_eq_none_iff, l1]
    exact hn
  | some p =>
    obtain ⟨q, hq, e1⟩ := g1 n p hn
    rw [hq, Option.map_some]
    congr 1
    unfold memRenames at e1
    unfold otherNames
    cases hx : d.get? p with
    | none => rw [hx] at e1; injection e1 with e1; exact e1.symm
    | some x =>
      rw [hx] at e1
      cases x with
      | val v => cases e1
      | map f => injection e1 with e1; exact e1.symm

/-- the names given to one parameter are not given to another -/
def Separate (d : Dict Str (PInfo K)) (columns : List Str) : Prop :=
  ∀ p ∈ columns, ∀ q ∈ columns, ∀ x, x ∈ p :: otherNames d p → x ∈ q :: otherNames d q → p = q

theorem conn_separate {d : Dict Str (PInfo K)} {columns : List Str} (hs : Separate d columns) {a b : Str}
    (h : ParamNames.Conn [columns.map (fun p => (p, ([] : List Str))), columns.map (fun p => (p, otherNames d p))] a b) :
    ∃ p ∈ columns, a ∈ p :: otherNames d p ∧ b ∈ p :: otherNames d p := by
  induction h with
  | @edge dic k v a b hd hk ha hb =>
    rcases List.mem_cons.mp hd with rfl | hd
    · obtain ⟨p, hp, e⟩ := List.mem_map.mp hk
      injection e with e1 e2
      subst e1 e2
      refine ⟨p, hp, ?_, ?_⟩
      · simp only [List.mem_cons, List.not_mem_nil, or_false] at ha
        simp [ha]
      · simp only [List.mem_cons, List.not_mem_nil, or_false] at hb
        simp [hb]
    · rcases List.mem_cons.mp hd with rfl | hd
      · obtain ⟨p, hp, e⟩ := List.mem_map.mp hk
        injection e with e1 e2
        subst e1 e2
        exact ⟨p, hp, ha, hb⟩
      · cases hd
  | trans _ _ h1 h2 =>
    obtain ⟨p, hp, ha, hb⟩ := h1
    obtain ⟨q, hq, hb', hc⟩ := h2
    have := hs p hp q hq _ hb hb'
    subst this
    exact ⟨p, hp, ha, hc⟩

/-- the parameters are those of the collections in their order, with the label (the name without one), flag and other names of the information -/
theorem memory_params (hp : ∀ l, l ≠ [] → pick l ∈ l) (h : fromCobaya interval parse pick colls i ignore set ini = .ok out) (d : Dict Str (PInfo K)) (hd : infoParams i = .ok d)
    (columns : List Str) (hc : ∀ c ∈ colls, c.columns = columns) (hnd : (columns.drop 2).Nodup) (hok : ∀ p ∈ columns.drop 2, ParamNames.NameOK p)
    (hsep : Separate d (columns.drop 2)) :
    ∃ f : Str → List Str, out.params = (columns.drop 2).map (fun p => ({ name := p, label := labelOf d p, isDerived := derivedIn d p, renames := f p } : ParamNames.Info)) ∧
      ∀ p ∈ columns.drop 2, ∀ x, x ∈ f p ↔ x ∈ otherNames d p ∧ x ≠ p := by
  obtain ⟨columns', d', names, labels, ranges, renames, sampler, c, h1, h2, h3, h4, h5, h6, h7, h8, h9, h10, h11, _⟩ := steps h
  rw [hd] at h2
  injection h2 with h2
  subst h2
  have hcol : columns' = columns := by
    unfold commonColumns at h1
    cases colls with
    | nil => cases h1
    | cons a l =>
      simp only [] at h1
      split at h1
      · injection h1 with h1
        rw [← h1, hc a (by simp)]
      · cases h1
  subst hcol
  rw [setLabels_eq hok h4 h5, renames_eq h7] at h11
  set L := columns'.drop 2 with hL
  set ps := L.map (fun p => ({ name := p, label := labelOf d p, isDerived := derivedIn d p } : ParamNames.Info)) with hps
  have hnames : ps.map (·.name) = L := by
    rw [hps, List.map_map]
    exact List.map_id' L
  have hg : ParamNames.getRenames ps = L.map (fun p => (p, ([] : List Str))) := by
    rw [ParamNames.getRenames_eq ps (by rw [hnames]; exact hnd), hps, List.map_map]
    rfl
  have hconn : ∀ p ∈ L, ∀ x, ParamNames.Conn [ParamNames.getRenames ps, L.map (fun p => (p, otherNames d p))] p x ↔ x ∈ p :: otherNames d p := by
    intro p hpL x
    constructor
    · intro hcn
      rw [hg] at hcn
      obtain ⟨q, hq, ha, hb⟩ := conn_separate hsep hcn
      have := hsep p hpL q hq p (by simp) ha
      rw [this]
      exact hb
    · intro hx
      exact .edge (dic := L.map (fun p => (p, otherNames d p))) (k := p) (v := otherNames d p) (by simp) (List.mem_map.mpr ⟨p, hpL, rfl⟩) (by simp) hx
  obtain ⟨f, e1, e2⟩ := ParamNames.updateRenames_spec pick hp ps (L.map (fun p => (p, otherNames d p))) (by rw [hnames]; exact hnd) (by
    intro p hpm q hqm hcn
    have h1 : p.name ∈ L := hnames ▸ List.mem_map.mpr ⟨p, hpm, rfl⟩
    have h2 : q.name ∈ L := hnames ▸ List.mem_map.mpr ⟨q, hqm, rfl⟩
    exact hsep _ h1 _ h2 q.name ((hconn _ h1 _).mp hcn) (by simp))
  refine ⟨fun p => f { name := p, label := labelOf d p, isDerived := derivedIn d p }, ?_, ?_⟩
  · rw [h11, e1, hps, List.map_map]
    rfl
  · intro p hpL x
    have := e2 { name := p, label := labelOf d p, isDerived := derivedIn d p } (List.mem_map.mpr ⟨p, hpL, rfl⟩) x
    rw [this, hconn p hpL x]
    simp only [List.mem_cons]
    constructor
    · rintro ⟨h1 | h1, h2⟩
      · exact absurd h1 h2
      · exact ⟨h1, h2⟩
    · rintro ⟨h1, h2⟩
      exact ⟨Or.inr h1, h2⟩

/-! ### values -/

/-- value of a column in a row -/
def cell (c : Coll K) (r : List K) (name : Str) : Option K := (c.columns.findIdx? (· == name)).map (fun j => r.getD j 0)

theorem colValues_spec {c : Coll K} {name : Str} {v : List K} (h : colValues c name = .ok v) : v.map some = c.rows.map (fun r => cell c r name) := by
  unfold colValues at h
  unfold cell
  split at h
  · cases h
  · rename_i j hj
    injection h with h
    rw [← h, hj, List.map_map]
    rfl

/-- weights and likelihoods are the columns with those names wherever they are; the value of a parameter is that in its column, for every row of every chain -/
theorem memory_values (h : fromCobaya interval parse pick colls i ignore set ini = .ok out) :
    out.weights.map (·.map some) = colls.map (fun c => c.rows.map (fun r => cell c r c!"weight")) ∧
    out.loglikes.map (·.map some) = colls.map (fun c => c.rows.map (fun r => cell c r c!"minuslogpost")) ∧
    ∀ (k n j : Nat) (c : Coll K) (r : List K) (p : Str), colls[k]? = some c → c.rows[n]? = some r → c.columns.Nodup → r.length = c.columns.length →
      c.columns[j + 2]? = some p → ∃ s v, out.samples[k]? = some s ∧ s[n]? = some v ∧ v[j]? = cell c r p := by
  obtain ⟨columns, d, names, labels, ranges, renames, sampler, cc, h1, h2, h3, h4, h5, h6, h7, h8, h9, h10, h11, h12, h13, h14, h15, h16, _⟩ := steps h
  have hcols : ∀ {name : Str} {ws : List (List K)}, colls.mapM (colValues · name) = .ok ws → ws.map (·.map some) = colls.map (fun c => c.rows.map (fun r => cell c r name)) := by
    intro name ws hw
    obtain ⟨l1, g1⟩ := mapM_inv hw
    apply List.ext_getElem?
    intro n
    rw [List.getElem?_map, List.getElem?_map]
    cases hn : colls[n]? with
    | none =>
      have : ws[n]? = none := by
        rw [List.getElem?_eq_none_iff] at hn ⊢
        omega
      rw [this]
      rfl
    | some c =>
      obtain ⟨v, hv, e⟩ := g1 n c hn
      rw [hv]
      simp only [Option.map_some]
      rw [colValues_spec e]
  refine ⟨hcols h8, hcols h9, ?_⟩
  intro k n j c r p hk hn hnd hr hp
  refine ⟨c.rows.map (·.drop 2), r.drop 2, ?_, ?_, ?_⟩
  · rw [h16, List.getElem?_map, hk]
    rfl
  · rw [List.getElem?_map, hn]
    rfl
  · have hidx : c.columns.findIdx? (· == p) = some (j + 2) := by
      obtain ⟨hlt, hget⟩ := List.getElem?_eq_some_iff.mp hp
      rw [List.findIdx?_eq_some_iff_getElem]
      refine ⟨hlt, by simp [hget], ?_⟩
      intro m hm
      have : c.columns[m] ≠ p := by
        intro he
        have := (List.Nodup.getElem_inj_iff hnd (hi := by omega) (hj := hlt)).mp (he.trans hget.symm)
        omega
      simpa using this
    unfold cell
    rw [hidx, Option.map_some, List.getElem?_drop, Nat.add_comm 2 j]
    have hlt : j + 2 < r.length := by
      rw [hr]
      exact (List.getElem?_eq_some_iff.mp hp).1
    rw [List.getElem?_eq_getElem hlt, List.getD_eq_getElem?_getD, List.getElem?_eq_getElem hlt]
    rfl

/-! ### ranges -/

theorem setOne_spec {b b' : Bounds.ParamBounds K} {e : Str × Range K} (h : setOne b e = .ok b') (k : Str) :
    Bounds.getLower b' k = (if e.1 = k then (finite e.2.1).or (Bounds.getLower b k) else Bounds.getLower b k) ∧
    Bounds.getUpper b' k = (if e.1 = k then (finite e.2.2).or (Bounds.getUpper b k) else Bounds.getUpper b k) := by
  unfold setOne at h
  obtain ⟨u, hu, h⟩ := bind_ok h
  obtain ⟨v, hv, h⟩ := bind_ok h
  have hu := lift_ok hu
  have hv := lift_ok hv
  obtain ⟨n, lo, up⟩ := e
  have h1 : u.value = .ok (finite lo) := by
    cases lo with
    | none => cases hu; rfl
    | some x => cases x <;> cases hu <;> rfl
  have h2 : v.value = .ok (finite up) := by
    cases up with
    | none => cases hv; rfl
    | some x => cases x <;> cases hv <;> rfl
  simp only [Bounds.setRange, bind, Except.bind, h1, h2, pure, Except.pure] at h
  injection h with h
  subst h
  simp [Bounds.getLower, Bounds.getUpper, Bounds.get_store]

/-- every parameter of the information has the limits of its range and no others -/
theorem memory_bounds (h : fromCobaya interval parse pick colls i ignore set ini = .ok out) (d : Dict Str (PInfo K)) (hd : infoParams i = .ok d) (k : Str) :
    (d.get? k = none → Bounds.getLower out.bounds k = none ∧ Bounds.getUpper out.bounds k = none) ∧
    ∀ p, d.get? k = some p → ∃ r, (getRange interval parse p).1 = .ok r ∧ Bounds.getLower out.bounds k = finite r.1 ∧ Bounds.getUpper out.bounds k = finite r.2 := by
  obtain ⟨columns', d', names, labels, ranges, renames, sampler, c, h1, h2, h3, h4, h5, h6, h7, h8, h9, h10, h11, h12, _⟩ := steps h
  rw [hd] at h2
  injection h2 with h2
  subst h2
  have key : ∀ (d : Dict Str (PInfo K)) (ranges : List (Str × Range K)) (b b' : Bounds.ParamBounds K), d.WF → List.mapM (memRange interval parse) d = .ok ranges →
      ranges.foldlM setOne b = .ok b' →
      (d.get? k = none → Bounds.getLower b' k = Bounds.getLower b k ∧ Bounds.getUpper b' k = Bounds.getUpper b k) ∧
      ∀ p, d.get? k = some p → ∃ r, (getRange interval parse p).1 = .ok r ∧ Bounds.getLower b' k = (finite r.1).or (Bounds.getLower b k) ∧
        Bounds.getUpper b' k = (finite r.2).or (Bounds.getUpper b k) := by
    intro d
    induction d with
    | nil =>
      intro ranges b b' _ hm hf
      rw [List.mapM_nil] at hm
      cases hm
      rw [List.foldlM_nil] at hf
      cases hf
      exact ⟨fun _ => ⟨rfl, rfl⟩, fun p hp => by simp at hp⟩
    | cons e d ih =>
      intro ranges b b' hw hm hf
      rw [List.mapM_cons] at hm
      obtain ⟨r, hr, hm⟩ := bind_ok hm
      obtain ⟨rs, hrs, hm⟩ := bind_ok hm
      cases hm
      rw [List.foldlM_cons] at hf
      obtain ⟨b1, hb1, hf⟩ := bind_ok hf
      simp only [Dict.WF, Dict.keys_cons, List.nodup_cons] at hw
      obtain ⟨i1, i2⟩ := ih rs b1 b' hw.2 hrs hf
      obtain ⟨s1, s2⟩ := setOne_spec hb1 k
      obtain ⟨n, q⟩ := e
      unfold memRange at hr
      obtain ⟨rr, hrr, hr⟩ := bind_ok hr
      have hrr := lift_ok hrr
      injection hr with hr
      subst hr
      by_cases hk : n = k
      · subst hk
        rw [if_pos rfl] at s1 s2
        obtain ⟨j1, j2⟩ := i1 (Dict.get?_eq_none.mpr hw.1)
        rw [Dict.get?_cons, if_pos rfl]
        refine ⟨by simp, fun p hp => ?_⟩
        injection hp with hp
        subst hp
        exact ⟨rr, hrr, by rw [j1, s1], by rw [j2, s2]⟩
      · rw [if_neg hk] at s1 s2
        rw [Dict.get?_cons, if_neg hk]
        rw [s1, s2] at i1 i2
        exact ⟨i1, i2⟩
  obtain ⟨k1, k2⟩ := key d ranges {} out.bounds (params_wf i d hd) h6 h12
  refine ⟨k1, fun p hp => ?_⟩
  obtain ⟨r, hr, e1, e2⟩ := k2 p hp
  refine ⟨r, hr, ?_, ?_⟩
  · rw [e1]; exact Option.or_none
  · rw [e2]; exact Option.or_none

/-- the limits are those that are read from the files of the same run -/
theorem memory_as_files (h : fromCobaya interval parse pick colls i ignore set ini = .ok out) (b : Bounds.ParamBounds K) (hb : loadBounds interval parse i = .ok b)
    (d : Dict Str (PInfo K)) (hd : infoParams i = .ok d) (k : Str) (hk : ∀ p, d.get? k = some p → withRange p = true) :
    Bounds.getLower out.bounds k = Bounds.getLower b k ∧ Bounds.getUpper out.bounds k = Bounds.getUpper b k := by
  obtain ⟨m1, m2⟩ := memory_bounds h d hd k
  obtain ⟨f1, f2⟩ := bounds_spec i d b hd hb k
  cases hp : d.get? k with
  | none =>
    obtain ⟨a1, a2⟩ := m1 hp
    obtain ⟨b1, b2⟩ := f2 (Or.inl hp)
    rw [a1, a2, b1, b2]
    exact ⟨rfl, rfl⟩
  | some p =>
    obtain ⟨r, hr, a1, a2⟩ := m2 p hp
    obtain ⟨b1, b2⟩ := f1 p r hp (hk p hp) hr
    rw [a1, a2, b1, b2]
    exact ⟨rfl, rfl⟩

/-- the parameters are those read from the files -/
theorem memory_names_as_files (hp : ∀ l, l ≠ [] → pick l ∈ l) (h : fromCobaya interval parse pick colls i ignore set ini = .ok out) (l : List ParamNames.Info) (hl : loadNames i = .ok l)
    (d : Dict Str (PInfo K)) (hd : infoParams i = .ok d) (columns : List Str) (hc : ∀ c ∈ colls, c.columns = columns) (hnd : (columns.drop 2).Nodup)
    (hok : ∀ p ∈ columns.drop 2, ParamNames.NameOK p) (hsep : Separate d (columns.drop 2)) (x : Str) :
    x ∈ l.map (·.name) ↔ x ∈ out.params.map (·.name) := by
  obtain ⟨f, e, _⟩ := memory_params hp h d hd columns hc hnd hok hsep
  obtain ⟨columns', d', hd', hne, hc', hm⟩ := memory_consistent h
  rw [hd] at hd'
  injection hd' with hd'
  subst hd'
  have hcc : columns' = columns := by
    cases colls with
    | nil => exact absurd rfl hne
    | cons a l => rw [← hc a (by simp), ← hc' a (by simp)]
  subst hcc
  have : out.params.map (·.name) = columns'.drop 2 := by
    rw [e, List.map_map]
    exact List.map_id' _
  rw [this, hm, (names_spec i d l hd hl).1, List.mem_append]
  have hw := params_wf i d hd
  constructor
  · rintro (hx | hx)
    · obtain ⟨⟨k, y⟩, hy, rfl⟩ := List.mem_map.mp hx
      rw [List.mem_filter] at hy
      exact ⟨y, Dict.get?_of_mem hw hy.1, Or.inl hy.2⟩
    · obtain ⟨⟨k, y⟩, hy, rfl⟩ := List.mem_map.mp hx
      rw [List.mem_filter] at hy
      exact ⟨y, Dict.get?_of_mem hw hy.1, Or.inr hy.2⟩
  · rintro ⟨y, hy, hs⟩
    rcases hs with hs | hs
    · exact Or.inl (List.mem_map.mpr ⟨(x, y), List.mem_filter.mpr ⟨Dict.mem_of_get? hy, hs⟩, rfl⟩)
    · exact Or.inr (List.mem_map.mpr ⟨(x, y), List.mem_filter.mpr ⟨Dict.mem_of_get? hy, hs⟩, rfl⟩)

/-- burn-in is that of the argument, there is no other when it is zero; nested samples with burn-in are refused; sampler and label are those of the information -/
theorem memory_options (h : fromCobaya interval parse pick colls i ignore set ini = .ok out) :
    out.burn = Chains.setBurnOptions ignore ∧ samplerType i = .ok out.sampler ∧ (out.sampler = c!"nested" → ignore = 0) ∧ out.label = i.label ∧
    (out.warned = true ↔ ignore ≠ 0 ∧ (i.post.bind (·.skip)).getD 0 ≠ 0) := by
  obtain ⟨columns', d', names, labels, ranges, renames, sampler, c, h1, h2, h3, h4, h5, h6, h7, h8, h9, h10, h11, h12, h13, h14, h15, h16, h17, h18⟩ := steps h
  unfold construct at h13
  simp only [] at h13
  obtain ⟨s, hs, h13b⟩ := bind_ok h13
  clear h13
  have hss : s = sampler := by
    unfold samplerType at h10
    unfold setSampler at hs
    simp only [] at hs
    split at h10
    · cases h10
    · repeat' split at h10
      · injection h10 with h10
        subst h10
        rw [if_pos (by decide)] at hs
        injection hs with hs
        rw [← hs]
        decide
      · injection h10 with h10
        subst h10
        rw [if_pos (by decide)] at hs
        injection hs with hs
        rw [← hs]
        decide
      · injection h10 with h10
        subst h10
        rw [if_neg (by decide)] at hs
        cases hs
      · cases h10
  subst hss
  split at h13b
  · cases h13b
  · rename_i hn
    injection h13b with h13b
    rw [h14, h15, ← h13b]
    refine ⟨rfl, h10, ?_, h17, h18⟩
    intro he
    by_contra h0
    exact hn ⟨he, h0⟩

end

/-! ### example and defects -/

/-- information as in the examples -/
def memInfo : Info ℚ :=
  { params := [(c!"ns", .map { prior := some (.pair (some (.fin (8/10))) (some (.fin (12/10)))), latex := some c!"n_s", renames := some [c!"tilt"] }),
               (c!"H0", .map { derived := some true }), (c!"mnu", .val (.num (6/100)))],
    likelihood := [c!"lite"] }

def memCols : List Str := [c!"weight", c!"minuslogpost", c!"H0", c!"ns", c!"minuslogprior", c!"minuslogprior__0", c!"chi2", c!"chi2__lite"]

def memColl : Coll ℚ := ⟨memCols, [[1, 5, 70, 9/10, 0, 0, 10, 10], [2, 6, 68, 1, 0, 0, 12, 12]]⟩

def exCall (i : Info ℚ) (colls : List (Coll ℚ)) (ignore : ℚ) (set : Option ℚ) : Except MErr (Out ℚ) :=
  fromCobaya exInterval (fun _ => none) ParamNames.pickHead colls i ignore set (some defaultRows)

example : (exCall memInfo [memColl, memColl] 0 none).map (fun o => o.params.take 2) = .ok [⟨c!"H0", c!"H0", [], true, []⟩, ⟨c!"ns", c!"n_s", [], false, [c!"tilt"]⟩] := by decide +kernel
example : (exCall memInfo [memColl, memColl] 0 none).map (fun o => [o.bounds.lower, o.bounds.upper]) =
    .ok [[(c!"ns", 8/10), (c!"mnu", 6/100)], [(c!"ns", 12/10), (c!"mnu", 6/100)]] := by decide +kernel
example : (exCall memInfo [memColl, memColl] 0 none).map (fun o => o.samples.map (·.map (·.take 2))) = .ok [[[70, 9/10], [68, 1]], [[70, 9/10], [68, 1]]] := by decide +kernel
example : (exCall memInfo [memColl] 0 none).map (fun o => [o.weights, o.loglikes]) = .ok [[[1, 2]], [[5, 6]]] := by decide +kernel

/-- the full statement: information for which names and bounds can be read from files is accepted with collections that have its parameters -/
def AsFiles : Prop := ∀ (i : Info ℚ) (c : Coll ℚ) (d : Dict Str (PInfo ℚ)) (l : List ParamNames.Info) (b : Bounds.ParamBounds ℚ), infoParams i = .ok d →
  loadNames i = .ok l → loadBounds exInterval (fun _ => none) i = .ok b → c.columns = c!"weight" :: c!"minuslogpost" :: varParams d → ∃ o, exCall i [c] 0 none = .ok o

/-- information with one more parameter -/
def withOne (x : PInfo ℚ) : Info ℚ := { params := [(c!"a", x)], likelihood := [] }

/-- a derived parameter without information is accepted for its label (line 100) and not for its other names (line 103) -/
theorem null_fails : ¬ AsFiles := by
  intro h
  have key : ∃ d l b, infoParams (withOne (.val .null)) = .ok d ∧ loadNames (withOne (.val .null)) = .ok l ∧
      loadBounds exInterval (fun _ => none) (withOne (.val .null)) = .ok b ∧ varParams d = [c!"a", c!"minuslogprior", c!"minuslogprior__0", c!"chi2"] :=
    ⟨_, _, _, rfl, rfl, rfl, by decide +kernel⟩
  obtain ⟨d, l, b, h1, h2, h3, h4⟩ := key
  obtain ⟨o, ho⟩ := h (withOne (.val .null)) ⟨[c!"weight", c!"minuslogpost", c!"a", c!"minuslogprior", c!"minuslogprior__0", c!"chi2"], []⟩ d l b h1 h2 h3 (by rw [h4])
  have : (exCall (withOne (.val .null)) [⟨[c!"weight", c!"minuslogpost", c!"a", c!"minuslogprior", c!"minuslogprior__0", c!"chi2"], []⟩] 0 none).map (fun o => o.label) =
      .error (.info .attributeError) := by decide +kernel
  rw [ho] at this
  cases this

/-- a function that is not saved has no range when files are read (parampriors.py:38-40), here its range is asked for and is an exception (lines 101-102, 183) -/
theorem function_fails : ¬ AsFiles := by
  intro h
  have key : ∃ d l b, infoParams (withOne (.map { value := some .fn, derived := some false })) = .ok d ∧ loadNames (withOne (.map { value := some .fn, derived := some false })) = .ok l ∧
      loadBounds exInterval (fun _ => none) (withOne (.map { value := some .fn, derived := some false })) = .ok b ∧ varParams d = [c!"minuslogprior", c!"minuslogprior__0", c!"chi2"] :=
    ⟨_, _, _, rfl, rfl, rfl, by decide +kernel⟩
  obtain ⟨d, l, b, h1, h2, h3, h4⟩ := key
  obtain ⟨o, ho⟩ := h (withOne (.map { value := some .fn, derived := some false })) ⟨[c!"weight", c!"minuslogpost", c!"minuslogprior", c!"minuslogprior__0", c!"chi2"], []⟩ d l b h1 h2 h3
    (by rw [h4])
  have : (exCall (withOne (.map { value := some .fn, derived := some false })) [⟨[c!"weight", c!"minuslogpost", c!"minuslogprior", c!"minuslogprior__0", c!"chi2"], []⟩] 0 none).map
      (fun o => o.label) = .error (.info .typeError) := by decide +kernel
  rw [ho] at this
  cases this

/-- the full statement: `ignore_rows` of the settings is used when the argument is left out -/
def SettingsRows : Prop := ∀ (i : Info ℚ) (c : Coll ℚ) (r : ℚ) (o : Out ℚ), exCall i [c] 0 (some r) = .ok o → o.burn = Chains.setBurnOptions r

/-- the argument is always handed on, also its default, and overwrites the entry of the settings (mcsamples.py:214-217) -/
theorem settings_rows_fails : ¬ SettingsRows := by
  intro h
  have key : ∃ o, exCall memInfo [memColl] 0 (some (3/10)) = .ok o ∧ o.burn.frac = 0 := by
    have : (exCall memInfo [memColl] 0 (some (3/10))).map (fun o => o.burn.frac) = .ok 0 := by decide +kernel
    cases ho : exCall memInfo [memColl] 0 (some (3/10)) with
    | error e => rw [ho] at this; cases this
    | ok o =>
      rw [ho] at this
      injection this with this
      exact ⟨o, rfl, this⟩
  obtain ⟨o, ho, hf⟩ := key
  have := h memInfo memColl (3/10) o ho
  rw [this] at hf
  exact absurd hf (by decide +kernel)

/-- the full statement: labels and other names may be common to no other parameter or not; the alias of one parameter does not become the alias of another -/
def OwnAliases : Prop := ∀ (i : Info ℚ) (c : Coll ℚ) (d : Dict Str (PInfo ℚ)) (o : Out ℚ), infoParams i = .ok d → exCall i [c] 0 none = .ok o →
  ∀ p ∈ o.params, ∀ x ∈ p.renames, x ∈ otherNames d p.name

/-- parameters with a common other name are taken for the same: one of them gets the name of the other as its own (chains.py:1099-1100, paramnames.py:326-331) -/
theorem common_alias_fails : ¬ OwnAliases := by
  intro h
  let i : Info ℚ := { params := [(c!"a", .map { derived := some true, renames := some [c!"x"] }), (c!"b", .map { derived := some true, renames := some [c!"x"] })], likelihood := [] }
  let c : Coll ℚ := ⟨[c!"weight", c!"minuslogpost", c!"a", c!"b", c!"minuslogprior", c!"minuslogprior__0", c!"chi2"], []⟩
  have key : (exCall i [c] 0 none).map (fun o => (o.params.map (fun p => (p.name, p.renames)))) =
      .ok [(c!"a", [c!"x", c!"b"]), (c!"b", []), (c!"minuslogprior", []), (c!"minuslogprior__0", []), (c!"chi2", [])] := by decide +kernel
  cases ho : exCall i [c] 0 none with
  | error e => rw [ho] at key; cases key
  | ok o =>
    rw [ho] at key
    injection key with key
    dsimp only at key
    obtain ⟨d, hd, hx⟩ : ∃ d, infoParams i = .ok d ∧ otherNames d c!"a" = [c!"x"] := ⟨_, rfl, by decide +kernel⟩
    have hmem : (c!"a", [c!"x", c!"b"]) ∈ o.params.map (fun p => (p.name, p.renames)) := by
      rw [key]
      exact List.mem_cons_self
    obtain ⟨p, hp, e⟩ := List.mem_map.mp hmem
    injection e with e1 e2
    have := h i c d o hd ho p hp c!"b" (by rw [e2]; decide)
    rw [e1, hx] at this
    exact absurd this (by decide)

end Verif.Cobaya
