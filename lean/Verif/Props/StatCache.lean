import Verif.Model.StatCache

/-!
# Stored statistics agree with the samples (C206, C207)

Every answer is compared with the formula applied to the present samples, ranges and settings, whatever was done before.
-/

namespace Verif.StatCache
open Verif.Py

set_option linter.unusedSectionVars false
set_option linter.unusedVariables false

variable {D G M C L P X : Type}

/-! ## What the answers should be -/

/-- limits of the settings come first, then the stored ranges -/
def Eff (lib : Lib D G M C L P X) (s : St D G M C L P X) : Ranges := initLimits lib s.cfg (list s) s.ranges

/-- the density of `n` for the present samples -/
def wantDens (lib : Lib D G M C L P X) (s : St D G M C L P X) (n : Str) (kw : Option G) : Option P :=
  if n ∈ list s then some (lib.dens s.data (Eff lib s) (kw.getD s.cfg) n) else none

/-- the limits of `n` for the present samples -/
def wantLim (lib : Lib D G M C L P X) (s : St D G M C L P X) (n : Str) : X :=
  lib.marge (lib.dens s.data (Eff lib s) s.cfg n) s.data (Eff lib s) s.cfg n

def wantMarge (lib : Lib D G M C L P X) (s : St D G M C L P X) : List (Str × Option X) :=
  (list s).map (fun n => (n, some (wantLim lib s n)))

/-! ## Ranges -/

theorem set_get_self {κ ν : Type} [DecidableEq κ] : ∀ {d : Dict κ ν} {k : κ} {v : ν}, d.get? k = some v → d.set k v = d
  | [], k, v, h => by simp at h
  | (k', v') :: d, k, v, h => by
    rw [Dict.get?_cons] at h
    unfold Dict.set
    by_cases e : k' = k
    · rw [if_pos e] at h ⊢
      cases h; rfl
    · rw [if_neg e] at h ⊢
      rw [set_get_self h]

theorem initLimit_get (lib : Lib D G M C L P X) (g : G) (r : Ranges) (m n : Str) :
    (initLimit lib g r m).get? n = if n = m then ((lib.limits g m).or (r.get? n)) else r.get? n := by
  unfold initLimit
  cases h : lib.limits g m with
  | none => by_cases e : n = m <;> simp [e]
  | some v => rw [Dict.get?_set]; simp

/-- **C206** The range of a parameter: the limits in the settings if there are any, otherwise the range that was set. -/
theorem range_used (lib : Lib D G M C L P X) (g : G) : ∀ (names : List Str) (r : Ranges) (n : Str),
    (initLimits lib g names r).get? n = if n ∈ names then (lib.limits g n).or (r.get? n) else r.get? n
  | [], r, n => by simp [initLimits]
  | m :: names, r, n => by
    have ih := range_used lib g names (initLimit lib g r m) n
    unfold initLimits at ih ⊢
    rw [List.foldl_cons, ih, initLimit_get]
    by_cases e : n = m
    · subst e
      by_cases h : n ∈ names
      · simp only [h, if_true, List.mem_cons, or_true]
        cases lib.limits g n <;> simp
      · simp [h]
    · simp [e]

theorem initLimits_fix (lib : Lib D G M C L P X) (g : G) : ∀ (names : List Str) (r : Ranges),
    (∀ n ∈ names, ∀ v, lib.limits g n = some v → r.get? n = some v) → initLimits lib g names r = r
  | [], r, _ => rfl
  | m :: names, r, h => by
    have e : initLimit lib g r m = r := by
      unfold initLimit
      cases hl : lib.limits g m with
      | none => rfl
      | some v => exact set_get_self (h m (List.mem_cons_self ..) v hl)
    unfold initLimits
    rw [List.foldl_cons, e]
    exact initLimits_fix lib g names r (fun n hn => h n (List.mem_cons_of_mem _ hn))

theorem initLimits_idem (lib : Lib D G M C L P X) (g : G) (names : List Str) (r : Ranges) :
    initLimits lib g names (initLimits lib g names r) = initLimits lib g names r := by
  apply initLimits_fix
  intro n hn v hv
  rw [range_used, if_pos hn, hv]; rfl

/-! ## The invariants -/

/-- stored means, covariance and correlations are those of the present samples -/
structure Base (lib : Lib D G M C L P X) (s : St D G M C L P X) : Prop where
  means : ∀ m, s.means = some m → m = lib.means s.data
  cov : ∀ c, s.fullcov = some c → c = lib.cov s.data
  corr : ∀ c, s.corr = some c → c = lib.corr (lib.cov s.data)

/-- and so are the other results unless the object is marked -/
structure Synced (lib : Lib D G M C L P X) (s : St D G M C L P X) : Prop where
  ranges : s.ranges = Eff lib s
  par : s.par = s.ranges
  index : s.index = list s
  cov : s.fullcov = some (lib.cov s.data)
  like : s.like = lib.like s.data s.cfg
  dens : ∀ n p, s.density1D.get? n = some p → n ∈ list s ∧ p = lib.dens s.data s.ranges s.cfg n
  marge : s.done1D = true → ∀ n ∈ list s, s.lims.get? n = some (wantLim lib s n)

structure Inv (lib : Lib D G M C L P X) (s : St D G M C L P X) : Prop where
  base : Base lib s
  synced : s.needsUpdate = false → Synced lib s

/-- a step that neither changes settings without the update nor is an `addDerived` with a range for a name that exists -/
def Plain (s : St D G M C L P X) : Op D G → Prop
  | .updateSettings _ u => u = true
  | .addDerived _ n r => r = none ∨ n ∉ list s
  | _ => True

/-- a sequence of such steps -/
def PlainRun (lib : Lib D G M C L P X) : St D G M C L P X → List (Op D G) → Prop
  | _, [] => True
  | s, o :: ops => Plain s o ∧ PlainRun lib (step lib s o) ops

theorem theMeans_eq {lib : Lib D G M C L P X} {s : St D G M C L P X} (h : Base lib s) : theMeans lib s = lib.means s.data := by
  unfold theMeans
  cases hm : s.means with
  | none => rfl
  | some m => exact h.means m hm

theorem update_base {lib : Lib D G M C L P X} {s : St D G M C L P X} (h : Base lib s) : Base lib (update lib s) where
  means := by
    intro m hm
    have : some (theMeans lib s) = some m := hm
    cases this
    exact theMeans_eq h
  cov := by
    intro c hc
    have : some (lib.cov s.data) = some c := hc
    cases this; rfl
  corr := h.corr

theorem eff_update (lib : Lib D G M C L P X) (s : St D G M C L P X) : Eff lib (update lib s) = Eff lib s :=
  initLimits_idem lib s.cfg (list s) s.ranges

theorem update_synced (lib : Lib D G M C L P X) (s : St D G M C L P X) : Synced lib (update lib s) where
  ranges := (eff_update lib s).symm
  par := rfl
  index := rfl
  cov := rfl
  like := rfl
  dens := by
    intro n p hp
    have : Dict.get? ([] : Dict Str P) n = some p := hp
    simp at this
  marge := by
    intro h
    exact absurd h (by change ¬ (false = true); simp)

theorem update_inv {lib : Lib D G M C L P X} {s : St D G M C L P X} (h : Base lib s) : Inv lib (update lib s) :=
  ⟨update_base h, fun _ => update_synced lib s⟩

/-- what a query must not change -/
structure Same (lib : Lib D G M C L P X) (s t : St D G M C L P X) : Prop where
  data : t.data = s.data
  cfg : t.cfg = s.cfg
  names : t.names = s.names
  eff : Eff lib t = Eff lib s

theorem Same.refl (lib : Lib D G M C L P X) (s : St D G M C L P X) : Same lib s s := ⟨rfl, rfl, rfl, rfl⟩

theorem Same.trans {lib : Lib D G M C L P X} {s t u : St D G M C L P X} (h : Same lib s t) (k : Same lib t u) : Same lib s u :=
  ⟨k.data.trans h.data, k.cfg.trans h.cfg, k.names.trans h.names, k.eff.trans h.eff⟩

theorem Same.list {lib : Lib D G M C L P X} {s t : St D G M C L P X} (h : Same lib s t) : list t = list s := by
  unfold StatCache.list; rw [h.names]

theorem Same.lim {lib : Lib D G M C L P X} {s t : St D G M C L P X} (h : Same lib s t) (n : Str) : wantLim lib t n = wantLim lib s n := by
  unfold wantLim; rw [h.data, h.cfg, h.eff]

theorem Same.dens {lib : Lib D G M C L P X} {s t : St D G M C L P X} (h : Same lib s t) (n : Str) (kw : Option G) :
    wantDens lib t n kw = wantDens lib s n kw := by
  unfold wantDens; rw [h.data, h.cfg, h.eff, h.list]

theorem sync_spec {lib : Lib D G M C L P X} {s : St D G M C L P X} (h : Inv lib s) :
    Inv lib (sync lib s) ∧ (sync lib s).needsUpdate = false ∧ Same lib s (sync lib s) ∧
    (s.done1D = false → (sync lib s).done1D = false) ∧ (sync lib s).lims = s.lims := by
  unfold sync
  cases hn : s.needsUpdate with
  | true => exact ⟨update_inv h.base, rfl, ⟨rfl, rfl, rfl, eff_update lib s⟩, fun _ => rfl, rfl⟩
  | false => exact ⟨h, hn, Same.refl lib s, fun e => e, rfl⟩

theorem sync_id {lib : Lib D G M C L P X} {s : St D G M C L P X} (h : s.needsUpdate = false) : sync lib s = s := by
  unfold sync; rw [h]; rfl

theorem eff_congr {lib : Lib D G M C L P X} {s t : St D G M C L P X} (hr : t.ranges = s.ranges) (hc : t.cfg = s.cfg)
    (hn : t.names = s.names) : Eff lib t = Eff lib s := by
  unfold Eff list; rw [hr, hc, hn]

/-- storing a density or a limit that is right keeps the invariant -/
theorem store_inv {lib : Lib D G M C L P X} {s : St D G M C L P X} (h : Inv lib s) (hs : s.needsUpdate = false) (n : Str)
    (hn : n ∈ list s) : Inv lib { s with density1D := s.density1D.set n (lib.dens s.data s.par s.cfg n) } := by
  refine ⟨⟨h.base.means, h.base.cov, h.base.corr⟩, fun _ => ?_⟩
  have k := h.synced hs
  refine ⟨k.ranges, k.par, k.index, k.cov, k.like, ?_, k.marge⟩
  intro m p hp
  have hp : (s.density1D.set n (lib.dens s.data s.par s.cfg n)).get? m = some p := hp
  rw [Dict.get?_set] at hp
  by_cases e : m = n
  · rw [if_pos e] at hp
    cases hp; subst e
    refine ⟨hn, ?_⟩
    change lib.dens s.data s.par s.cfg m = lib.dens s.data s.ranges s.cfg m
    rw [k.par]
  · rw [if_neg e] at hp
    exact k.dens m p hp

theorem gridData_spec {lib : Lib D G M C L P X} {s : St D G M C L P X} (h : Inv lib s) (n : Str) (kw : Option G) :
    (gridData lib s n kw).2 = wantDens lib s n kw ∧ Inv lib (gridData lib s n kw).1 ∧ (gridData lib s n kw).1.needsUpdate = false ∧
    Same lib s (gridData lib s n kw).1 ∧ (s.done1D = false → (gridData lib s n kw).1.done1D = false) ∧
    (gridData lib s n kw).1.lims = s.lims := by
  obtain ⟨hi, hu, hsame, hd, hl⟩ := sync_spec h
  have k := hi.synced hu
  unfold gridData
  dsimp only
  have hidx : (sync lib s).index = list s := k.index.trans hsame.list
  by_cases hn : n ∈ (sync lib s).index
  · rw [if_pos hn]
    have hn' : n ∈ list (sync lib s) := by rw [← k.index]; exact hn
    have hn'' : n ∈ list s := by rw [← hidx]; exact hn
    have hv : some (lib.dens (sync lib s).data (sync lib s).par (kw.getD (sync lib s).cfg) n) = wantDens lib s n kw := by
      unfold wantDens
      rw [if_pos hn'', k.par, k.ranges, hsame.data, hsame.cfg, hsame.eff]
    cases kw with
    | some g => exact ⟨hv, hi, hu, hsame, hd, hl⟩
    | none => exact ⟨hv, store_inv hi hu n hn', hu, ⟨hsame.data, hsame.cfg, hsame.names, (eff_congr rfl rfl rfl).trans hsame.eff⟩, hd, hl⟩
  · rw [if_neg hn]
    refine ⟨?_, hi, hu, hsame, hd, hl⟩
    unfold wantDens
    rw [if_neg (by rw [← hidx]; exact hn)]

theorem density_spec {lib : Lib D G M C L P X} {s : St D G M C L P X} (h : Inv lib s) (n : Str) (kw : Option G) :
    (density lib s n kw).2 = wantDens lib s n kw ∧ Inv lib (density lib s n kw).1 ∧ (density lib s n kw).1.needsUpdate = false ∧
    Same lib s (density lib s n kw).1 ∧ (s.done1D = false → (density lib s n kw).1.done1D = false) ∧
    (density lib s n kw).1.lims = s.lims := by
  obtain ⟨hi, hu, hsame, hd, hl⟩ := sync_spec h
  have g := gridData_spec hi n kw
  have k := hi.synced hu
  have gg : (gridData lib (sync lib s) n kw).2 = wantDens lib s n kw ∧ Inv lib (gridData lib (sync lib s) n kw).1 ∧
      (gridData lib (sync lib s) n kw).1.needsUpdate = false ∧ Same lib s (gridData lib (sync lib s) n kw).1 ∧
      (s.done1D = false → (gridData lib (sync lib s) n kw).1.done1D = false) ∧ (gridData lib (sync lib s) n kw).1.lims = s.lims :=
    ⟨g.1.trans (hsame.dens n kw), g.2.1, g.2.2.1, hsame.trans g.2.2.2.1, fun e => g.2.2.2.2.1 (hd e), g.2.2.2.2.2.trans hl⟩
  unfold density
  dsimp only
  cases kw with
  | some a => exact gg
  | none =>
    cases hp : (sync lib s).density1D.get? n with
    | none => exact gg
    | some p =>
      obtain ⟨hm, hp'⟩ := k.dens n p hp
      refine ⟨?_, hi, hu, hsame, hd, hl⟩
      unfold wantDens
      rw [if_pos (by rw [← hsame.list]; exact hm), hp', k.ranges, hsame.data, hsame.cfg, hsame.eff]
      rfl

theorem margeOne_spec {lib : Lib D G M C L P X} {s : St D G M C L P X} (h : Inv lib s) (hd : s.done1D = false) (n : Str) (hn : n ∈ list s) :
    Inv lib (margeOne lib s n) ∧ (margeOne lib s n).needsUpdate = false ∧ Same lib s (margeOne lib s n) ∧
    (margeOne lib s n).done1D = false ∧ ∀ m, (margeOne lib s n).lims.get? m = if m = n then some (wantLim lib s n) else s.lims.get? m := by
  obtain ⟨_, i1, u1, s1, d1, l1⟩ := gridData_spec h n none
  obtain ⟨v2, i2, u2, s2, d2, l2⟩ := density_spec i1 n none
  have hv : (density lib (gridData lib s n none).1 n none).2 = some (lib.dens s.data (Eff lib s) s.cfg n) := by
    rw [v2, s1.dens n none]; unfold wantDens; rw [if_pos hn]; rfl
  have hs := s1.trans s2
  have hdd := d2 (d1 hd)
  unfold margeOne
  dsimp only
  generalize hr : density lib (gridData lib s n none).1 n none = r at *
  obtain ⟨t, o⟩ := r
  dsimp only at hv i2 u2 hs l2 hdd
  rw [hv]
  dsimp only
  have k := i2.synced u2
  refine ⟨⟨⟨i2.base.means, i2.base.cov, i2.base.corr⟩, fun _ => ⟨k.ranges, k.par, k.index, k.cov, k.like, k.dens, ?_⟩⟩, u2,
    ⟨hs.data, hs.cfg, hs.names, (eff_congr rfl rfl rfl).trans hs.eff⟩, hdd, ?_⟩
  · intro hc
    exact absurd (hdd.symm.trans hc) (by simp)
  · intro m
    rw [Dict.get?_set, l2, l1]
    unfold wantLim
    rw [k.par, k.ranges, hs.data, hs.cfg, hs.eff]

theorem fold_spec {lib : Lib D G M C L P X} : ∀ (l : List Str) {s : St D G M C L P X}, Inv lib s → s.done1D = false → (∀ n ∈ l, n ∈ list s) →
    Inv lib (l.foldl (margeOne lib) s) ∧ (l ≠ [] → (l.foldl (margeOne lib) s).needsUpdate = false) ∧
    Same lib s (l.foldl (margeOne lib) s) ∧ (l.foldl (margeOne lib) s).done1D = false ∧
    ∀ m, (l.foldl (margeOne lib) s).lims.get? m = if m ∈ l then some (wantLim lib s m) else s.lims.get? m
  | [], s, h, hd, _ => ⟨h, fun e => absurd rfl e, Same.refl lib s, hd, fun m => by simp⟩
  | n :: l, s, h, hd, hl => by
    obtain ⟨i1, u1, s1, d1, g1⟩ := margeOne_spec h hd n (hl n (List.mem_cons_self ..))
    obtain ⟨i2, u2, s2, d2, g2⟩ := fold_spec l i1 d1 (fun m hm => by rw [s1.list]; exact hl m (List.mem_cons_of_mem _ hm))
    rw [List.foldl_cons]
    refine ⟨i2, fun _ => ?_, s1.trans s2, d2, ?_⟩
    · by_cases e : l = []
      · subst e; exact u1
      · exact u2 e
    · intro m
      rw [g2, g1, s1.lim]
      by_cases hm : m ∈ l
      · simp [hm]
      · by_cases e : m = n
        · subst e; simp [hm]
        · simp [hm, e]

theorem setMarge_inv {lib : Lib D G M C L P X} {s : St D G M C L P X} (h : Inv lib s) : Inv lib (setMarge lib s) ∧ Same lib s (setMarge lib s) := by
  unfold setMarge
  cases hd : s.done1D with
  | true => exact ⟨h, Same.refl lib s⟩
  | false =>
    obtain ⟨i, u, sm, d, g⟩ := fold_spec (list s) h hd (fun _ e => e)
    refine ⟨⟨⟨i.base.means, i.base.cov, i.base.corr⟩, fun hu => ?_⟩, ⟨sm.data, sm.cfg, sm.names, (eff_congr rfl rfl rfl).trans sm.eff⟩⟩
    have k := i.synced hu
    refine ⟨k.ranges, k.par, k.index, k.cov, k.like, k.dens, fun _ n hn => ?_⟩
    have hn : n ∈ list ((list s).foldl (margeOne lib) s) := hn
    have hg := g n
    rw [if_pos (by rw [← sm.list]; exact hn), ← sm.lim n] at hg
    exact hg

/-! ## All steps -/

theorem getCov_spec {lib : Lib D G M C L P X} {s : St D G M C L P X} (h : Base lib s) :
    (getCov lib s).2 = lib.cov s.data ∧ Base lib (getCov lib s).1 := by
  unfold getCov
  cases hc : s.fullcov with
  | some c => exact ⟨h.cov c hc, h⟩
  | none =>
    refine ⟨rfl, ⟨h.means, ?_, h.corr⟩⟩
    intro c e
    have e : some (lib.cov s.data) = some c := e
    cases e; rfl

theorem getCorr_spec {lib : Lib D G M C L P X} {s : St D G M C L P X} (h : Base lib s) :
    (getCorr lib s).2 = lib.corr (lib.cov s.data) ∧ Base lib (getCorr lib s).1 := by
  unfold getCorr
  cases hc : s.corr with
  | some c => exact ⟨h.corr c hc, h⟩
  | none =>
    obtain ⟨e, b⟩ := getCov_spec h
    refine ⟨by dsimp only; rw [e], ⟨b.means, b.cov, ?_⟩⟩
    intro c e'
    have e' : some (lib.corr (getCov lib s).2) = some c := e'
    cases e'
    rw [e]
    have : (getCov lib s).1.data = s.data := by
      unfold getCov; cases s.fullcov <;> rfl
    rw [show ({ (getCov lib s).1 with corr := some (lib.corr (lib.cov s.data)) } : St D G M C L P X).data = (getCov lib s).1.data from rfl, this]

theorem sync_base {lib : Lib D G M C L P X} {s : St D G M C L P X} (h : Base lib s) : Base lib (sync lib s) := by
  unfold sync
  cases s.needsUpdate with
  | true => exact update_base h
  | false => exact h

theorem gridData_base {lib : Lib D G M C L P X} {s : St D G M C L P X} (h : Base lib s) (n : Str) (kw : Option G) :
    Base lib (gridData lib s n kw).1 := by
  have b := sync_base h
  unfold gridData
  dsimp only
  by_cases hn : n ∈ (sync lib s).index
  · rw [if_pos hn]
    cases kw with
    | none => exact ⟨b.means, b.cov, b.corr⟩
    | some g => exact b
  · rw [if_neg hn]; exact b

theorem density_base {lib : Lib D G M C L P X} {s : St D G M C L P X} (h : Base lib s) (n : Str) (kw : Option G) :
    Base lib (density lib s n kw).1 := by
  have b := sync_base h
  unfold density
  dsimp only
  cases kw with
  | some a => exact gridData_base b n _
  | none =>
    cases (sync lib s).density1D.get? n with
    | none => exact gridData_base b n _
    | some p => exact b

theorem margeOne_base {lib : Lib D G M C L P X} {s : St D G M C L P X} (h : Base lib s) (n : Str) : Base lib (margeOne lib s n) := by
  have b := density_base (gridData_base h n none) n none
  unfold margeOne
  dsimp only
  generalize density lib (gridData lib s n none).1 n none = r at *
  obtain ⟨t, o⟩ := r
  cases o with
  | none => exact b
  | some p => exact ⟨b.means, b.cov, b.corr⟩

theorem fold_base {lib : Lib D G M C L P X} : ∀ (l : List Str) {s : St D G M C L P X}, Base lib s → Base lib (l.foldl (margeOne lib) s)
  | [], _, h => h
  | n :: l, _, h => fold_base l (margeOne_base h n)

theorem weightsChanged_base (lib : Lib D G M C L P X) (s : St D G M C L P X) (d : D) : Base lib (weightsChanged s d) :=
  ⟨fun m h => (by cases (show none = some m from h)), fun m h => (by cases (show none = some m from h)),
   fun m h => (by cases (show none = some m from h))⟩

theorem step_base {lib : Lib D G M C L P X} {s : St D G M C L P X} (h : Base lib s) (o : Op D G) : Base lib (step lib s o) := by
  cases o with
  | setData d => exact weightsChanged_base lib s d
  | setRanges r => exact ⟨h.means, h.cov, h.corr⟩
  | addDerived d n r =>
    have w := weightsChanged_base lib s d
    unfold step addDerived
    cases r with
    | none =>
      dsimp only
      by_cases hn : n ∈ list s
      · rw [if_pos hn]; exact h
      · rw [if_neg hn]; exact ⟨w.means, w.cov, w.corr⟩
    | some v =>
      dsimp only
      by_cases hn : n ∈ list ({ s with ranges := s.ranges.set n v } : St D G M C L P X)
      · rw [if_pos hn]; exact ⟨h.means, h.cov, h.corr⟩
      · rw [if_neg hn]; exact ⟨w.means, w.cov, w.corr⟩
  | updateSettings g u =>
    unfold step
    cases u with
    | true => exact update_base ⟨h.means, h.cov, h.corr⟩
    | false => exact ⟨h.means, h.cov, h.corr⟩
  | updateBase => exact update_base h
  | means =>
    refine ⟨?_, h.cov, h.corr⟩
    intro m e
    have e : some (theMeans lib s) = some m := e
    cases e
    exact theMeans_eq h
  | cov => exact (getCov_spec h).2
  | corr => exact (getCorr_spec h).2
  | covMat => exact h
  | like =>
    unfold step likeStats
    cases s.like with
    | none => exact ⟨h.means, h.cov, h.corr⟩
    | some l => exact h
  | marge =>
    unfold step margeStats setMarge
    dsimp only
    cases s.done1D with
    | true => exact h
    | false =>
      have b := fold_base (list s) h
      exact ⟨b.means, b.cov, b.corr⟩
  | density n kw => exact density_base h n kw

theorem run_base {lib : Lib D G M C L P X} : ∀ (ops : List (Op D G)) {s : St D G M C L P X}, Base lib s → Base lib (run lib s ops)
  | [], _, h => h
  | o :: ops, _, h => run_base ops (step_base h o)

theorem step_inv {lib : Lib D G M C L P X} {s : St D G M C L P X} (h : Inv lib s) (o : Op D G) (hp : Plain s o) : Inv lib (step lib s o) := by
  have b := step_base h.base o
  cases o with
  | setData d => exact ⟨b, fun e => by cases (show true = false from e)⟩
  | setRanges r => exact ⟨b, fun e => by cases (show true = false from e)⟩
  | addDerived d n r =>
    refine ⟨b, ?_⟩
    unfold step addDerived
    cases r with
    | none =>
      dsimp only
      by_cases hn : n ∈ list s
      · rw [if_pos hn]; exact h.synced
      · rw [if_neg hn]; exact fun e => by cases (show true = false from e)
    | some v =>
      have hn : n ∉ list s := by
        rcases hp with hp | hp
        · cases hp
        · exact hp
      dsimp only
      rw [if_neg (show n ∉ list ({ s with ranges := s.ranges.set n v } : St D G M C L P X) from hn)]
      exact fun e => by cases (show true = false from e)
  | updateSettings g u =>
    have hu : u = true := hp
    subst hu
    exact ⟨b, fun _ => update_synced lib _⟩
  | updateBase => exact update_inv h.base
  | means => exact ⟨b, fun e => let k := h.synced e; ⟨k.ranges, k.par, k.index, k.cov, k.like, k.dens, k.marge⟩⟩
  | cov =>
    refine ⟨b, ?_⟩
    unfold step getCov
    cases hc : s.fullcov with
    | some c => exact h.synced
    | none => exact fun e => let k := h.synced e; ⟨k.ranges, k.par, k.index, rfl, k.like, k.dens, k.marge⟩
  | corr =>
    refine ⟨b, ?_⟩
    unfold step getCorr
    cases hc : s.corr with
    | some c => exact h.synced
    | none =>
      unfold getCov
      cases hf : s.fullcov with
      | some c => exact fun e => let k := h.synced e; ⟨k.ranges, k.par, k.index, k.cov, k.like, k.dens, k.marge⟩
      | none => exact fun e => let k := h.synced e; ⟨k.ranges, k.par, k.index, rfl, k.like, k.dens, k.marge⟩
  | covMat => exact h
  | like =>
    refine ⟨b, ?_⟩
    unfold step likeStats
    cases hl : s.like with
    | some c => exact h.synced
    | none => exact fun e => let k := h.synced e; ⟨k.ranges, k.par, k.index, k.cov, rfl, k.dens, k.marge⟩
  | marge => exact (setMarge_inv h).1
  | density n kw => exact (density_spec h n kw).2.1

theorem run_inv {lib : Lib D G M C L P X} : ∀ (ops : List (Op D G)) {s : St D G M C L P X}, Inv lib s → PlainRun lib s ops → Inv lib (run lib s ops)
  | [], _, h, _ => h
  | o :: ops, _, h, hp => run_inv ops (step_inv h o hp.1) hp.2

theorem load_base (lib : Lib D G M C L P X) (d : D) (r : Ranges) (g : G) (names : List (Str × Bool)) : Base lib (load lib d r g names) :=
  update_base ⟨fun m h => (by cases (show none = some m from h)), fun m h => (by cases (show none = some m from h)),
    fun m h => (by cases (show none = some m from h))⟩

theorem load_inv (lib : Lib D G M C L P X) (d : D) (r : Ranges) (g : G) (names : List (Str × Bool)) : Inv lib (load lib d r g names) :=
  ⟨load_base lib d r g names, fun _ => update_synced lib _⟩

/-! ## What the user sees -/

variable (lib : Lib D G M C L P X) (d : D) (r : Ranges) (g : G) (names : List (Str × Bool)) (ops : List (Op D G))

/-- **C206** Means, covariance and correlations asked for after any sequence of changes and queries are those of the samples
held at that moment. -/
theorem moments_fresh : let s := run lib (load lib d r g names) ops
    (getMeans lib s).2 = lib.means s.data ∧ (getCov lib s).2 = lib.cov s.data ∧ (getCorr lib s).2 = lib.corr (lib.cov s.data) := by
  have b := run_base ops (load_base lib d r g names)
  exact ⟨theMeans_eq b, (getCov_spec b).1, (getCorr_spec b).1⟩

/-- **C206** A density asked for after any such sequence (of plain steps) is the one of the present samples, ranges and
settings, with or without keyword arguments, and a name that is not a parameter gives nothing. -/
theorem density_fresh (hp : PlainRun lib (load lib d r g names) ops) (n : Str) (kw : Option G) :
    let s := run lib (load lib d r g names) ops
    (density lib s n kw).2 = wantDens lib s n kw :=
  (density_spec (run_inv ops (load_inv lib d r g names) hp) n kw).1

/-- **C206** So what was done before does not matter: two objects with the same samples, ranges, settings and names give the
same densities. -/
theorem density_history (ops' : List (Op D G)) (d' : D) (r' : Ranges) (g' : G) (names' : List (Str × Bool))
    (hp : PlainRun lib (load lib d r g names) ops) (hp' : PlainRun lib (load lib d' r' g' names') ops')
    (hd : (run lib (load lib d r g names) ops).data = (run lib (load lib d' r' g' names') ops').data)
    (hr : (run lib (load lib d r g names) ops).ranges = (run lib (load lib d' r' g' names') ops').ranges)
    (hg : (run lib (load lib d r g names) ops).cfg = (run lib (load lib d' r' g' names') ops').cfg)
    (hn : (run lib (load lib d r g names) ops).names = (run lib (load lib d' r' g' names') ops').names) (n : Str) (kw : Option G) :
    (density lib (run lib (load lib d r g names) ops) n kw).2 = (density lib (run lib (load lib d' r' g' names') ops') n kw).2 := by
  rw [density_fresh lib d r g names ops hp n kw, density_fresh lib d' r' g' names' ops' hp' n kw]
  exact (Same.dens ⟨hd.symm, hg.symm, hn.symm, eff_congr hr.symm hg.symm hn.symm⟩ n kw).symm

theorem margeStats_of {lib : Lib D G M C L P X} {s : St D G M C L P X} (h : Inv lib s) (hs : s.needsUpdate = false ∨ s.done1D = false) :
    (margeStats lib s).2 = wantMarge lib s := by
  unfold margeStats margeView wantMarge
  dsimp only
  have sm := (setMarge_inv h).2
  rw [sm.list]
  apply List.map_congr_left
  intro n hn
  have : (setMarge lib s).lims.get? n = some (wantLim lib s n) := by
    unfold setMarge
    cases hd : s.done1D with
    | true =>
      have hu : s.needsUpdate = false := by
        rcases hs with hs | hs
        · exact hs
        · rw [hd] at hs; cases hs
      exact (h.synced hu).marge hd n hn
    | false =>
      have hg := (fold_spec (list s) h hd (fun _ e => e)).2.2.2.2 n
      rw [if_pos hn] at hg
      exact hg
  rw [this]

/-- **C206** Right after `updateBaseStatistics`, whatever happened before (also steps that are not plain), limits, likelihood
statistics and covariance matrix are those of the present samples, ranges and settings. -/
theorem update_fresh : let s := run lib (load lib d r g names) (ops ++ [.updateBase])
    (margeStats lib s).2 = wantMarge lib s ∧ (likeStats lib s).2 = lib.like s.data s.cfg ∧
    getCovMat lib s = .ok ((list s).take (numSampled s), lib.sub (numSampled s) (lib.cov s.data)) := by
  have b := run_base ops (load_base lib d r g names)
  have e : run lib (load lib d r g names) (ops ++ [.updateBase]) = update lib (run lib (load lib d r g names) ops) := by
    unfold run; rw [List.foldl_append]; rfl
  intro s
  have hs : s = update lib (run lib (load lib d r g names) ops) := e
  have i : Inv lib s := by rw [hs]; exact update_inv b
  have hu : s.needsUpdate = false := by rw [hs]; rfl
  have k := i.synced hu
  refine ⟨margeStats_of i (.inl hu), ?_, ?_⟩
  · unfold likeStats
    cases hl : s.like with
    | none => rfl
    | some l => exact hl.symm.trans k.like
  · unfold getCovMat
    rw [k.cov]

/-- **C206** Asking for any density first has the same effect. -/
theorem after_density (hp : PlainRun lib (load lib d r g names) ops) (n : Str) (kw : Option G) :
    let s := run lib (load lib d r g names) (ops ++ [.density n kw])
    (margeStats lib s).2 = wantMarge lib s ∧ (likeStats lib s).2 = lib.like s.data s.cfg ∧
    getCovMat lib s = .ok ((list s).take (numSampled s), lib.sub (numSampled s) (lib.cov s.data)) := by
  have i0 := run_inv ops (load_inv lib d r g names) hp
  have e : run lib (load lib d r g names) (ops ++ [.density n kw]) = (density lib (run lib (load lib d r g names) ops) n kw).1 := by
    unfold run; rw [List.foldl_append]; rfl
  obtain ⟨_, i, hu, _, _, _⟩ := density_spec i0 n kw
  intro s
  have hs : s = (density lib (run lib (load lib d r g names) ops) n kw).1 := e
  rw [← hs] at i hu
  have k := i.synced hu
  refine ⟨margeStats_of i (.inl hu), ?_, ?_⟩
  · unfold likeStats
    cases hl : s.like with
    | none => rfl
    | some l => exact hl.symm.trans k.like
  · unfold getCovMat
    rw [k.cov]

/-- **C206** The first `getMargeStats` is always right: it reads stored limits only after it was called once. -/
theorem marge_first (hp : PlainRun lib (load lib d r g names) ops) (hd : (run lib (load lib d r g names) ops).done1D = false) :
    let s := run lib (load lib d r g names) ops
    (margeStats lib s).2 = wantMarge lib s :=
  margeStats_of (run_inv ops (load_inv lib d r g names) hp) (.inr hd)

/-! ## What fails -/

/-- data are numbers, a density is the number with the range, limits are the density -/
def exLib : Lib Nat Nat Nat Nat Nat (Nat × Option (Int × Int)) (Nat × Option (Int × Int)) where
  means d := d
  cov d := 10 * d
  corr c := c + 1
  like d g := some (d + g)
  dens d r g n := (d + g, r.get? n)
  marge p _ _ _ _ := p
  limits _ _ := none
  sub k c := k + c

def exSt : St Nat Nat Nat Nat Nat (Nat × Option (Int × Int)) (Nat × Option (Int × Int)) :=
  load exLib 1 [] 0 [(c!"x", false)]

example : (density exLib (run exLib exSt [.marge, .setData 2, .setRanges [(c!"x", (0, 5))]]) c!"x" none).2 = some (2, some (0, 5)) := by
  decide
example : PlainRun exLib exSt [.marge, .setData 2, .addDerived 3 c!"y" (some (0, 1)), .like] := by
  refine ⟨trivial, trivial, Or.inr (by decide), trivial, trivial⟩
example : (margeStats exLib (run exLib exSt [.marge, .setData 2, .updateBase])).2 = [(c!"x", some (2, none))] := by decide

/-- `getMargeStats` always describes the samples held at that moment -/
def MargeFresh : Prop := ∀ (ops : List (Op Nat Nat)), PlainRun exLib exSt ops →
  (margeStats exLib (run exLib exSt ops)).2 = wantMarge exLib (run exLib exSt ops)

/-- **C207 fails**: `getMargeStats`, `getTable`, `getLatex` and `getInlineLatex` after `filter`, re-weighting or `setRanges` give the limits of
the samples before the change, when limits had been asked for before: `_setDensitiesandMarge1D` returns at once if
`done_1Dbins` and does not look at `needs_update` (mcsamples.py:2206). -/
theorem marge_stale_fails : ¬ MargeFresh := by
  intro h
  exact absurd (h [.marge, .setData 2] ⟨trivial, trivial, trivial⟩) (by decide)

/-- every parameter has limits in the result of `getMargeStats` -/
def MargeComplete : Prop := ∀ (ops : List (Op Nat Nat)), PlainRun exLib exSt ops →
  ∀ e ∈ (margeStats exLib (run exLib exSt ops)).2, e.2.isSome

/-- **C207 fails**: a parameter added by `addDerived` after limits were asked for has no limits in `getMargeStats`, so `getTable` and
`getInlineLatex` stop with an `AttributeError` (mcsamples.py:2206, types.py:763). -/
theorem marge_new_parameter_fails : ¬ MargeComplete := by
  intro h
  exact absurd (h [.marge, .addDerived 2 c!"y" none] ⟨trivial, Or.inl rfl, trivial⟩) (by decide)

/-- `getLikeStats` always describes the samples held at that moment -/
def LikeFresh : Prop := ∀ (ops : List (Op Nat Nat)), PlainRun exLib exSt ops →
  (likeStats exLib (run exLib exSt ops)).2 = exLib.like (run exLib exSt ops).data (run exLib exSt ops).cfg

/-- **C207 fails**: `getLikeStats` after `filter` or re-weighting gives the best fit and the limits of the samples before the change
(`self.likeStats or …` without a look at `needs_update`, mcsamples.py:2134). -/
theorem like_stale_fails : ¬ LikeFresh := by
  intro h
  exact absurd (h [.setData 2] ⟨trivial, trivial⟩) (by decide)

/-- `getCovMat` always gives a matrix -/
def CovMatDefined : Prop := ∀ (ops : List (Op Nat Nat)), PlainRun exLib exSt ops → ∃ x, getCovMat exLib (run exLib exSt ops) = .ok x

/-- **C207 fails**: `getCovMat` and `writeCovMatrix` right after `filter`, re-weighting or `addDerived` stop with a `TypeError`: they use
`self.fullcov`, which is `None` then, and not `getCov()` (mcsamples.py:581). -/
theorem covmat_fails : ¬ CovMatDefined := by
  intro h
  obtain ⟨x, hx⟩ := h [.setData 2] ⟨trivial, trivial⟩
  exact absurd (show getCovMat exLib (run exLib exSt [.setData 2]) = .error .typeError from by rfl) (by rw [hx]; simp)

/-- the matrix of `getCovMat` is labelled by the parameters that are not derived -/
def CovMatSampled : Prop := ∀ (names : List (Str × Bool)) (x : List Str × Nat), getCovMat exLib (load exLib 1 [] 0 names) = .ok x →
  x.1 = (names.filter (fun e => !e.2)).map (·.1)

/-- **C207 fails**: with a derived parameter before a sampled one `getCovMat` takes the first columns, not the sampled ones
(mcsamples.py:580-582). -/
theorem covmat_columns_fails : ¬ CovMatSampled := by
  intro h
  exact absurd (h [(c!"d", true), (c!"x", false)] _ rfl) (by decide)

theorem take_filter {α : Type} (p : α → Bool) : ∀ (a b : List α), (∀ e ∈ a, p e = true) → (∀ e ∈ b, p e = false) →
    (a ++ b).take ((a ++ b).filter p).length = (a ++ b).filter p := by
  intro a b ha hb
  rw [List.filter_append, List.filter_eq_self.mpr ha, List.filter_eq_nil_iff.mpr (fun e he => by rw [hb e he]; simp), List.append_nil,
    List.take_left]

/-- **C206** With all derived parameters at the end the matrix is labelled by the sampled parameters, in order. -/
theorem covmat_sampled (a b : List (Str × Bool)) (ha : ∀ e ∈ a, e.2 = false) (hb : ∀ e ∈ b, e.2 = true) :
    getCovMat lib (load lib d r g (a ++ b)) = .ok (a.map (·.1), lib.sub a.length (lib.cov d)) := by
  have hf : (a ++ b).filter (fun e => !e.2) = a := by
    rw [List.filter_append, List.filter_eq_self.mpr (fun e he => by rw [ha e he]; rfl),
      List.filter_eq_nil_iff.mpr (fun e he => by rw [hb e he]; simp), List.append_nil]
  change Except.ok (((a ++ b).map (·.1)).take ((a ++ b).filter (fun e => !e.2)).length, lib.sub ((a ++ b).filter (fun e => !e.2)).length (lib.cov d)) = _
  rw [hf, List.map_append, List.take_left' (by simp)]

/-- an `addDerived` that is refused changes nothing -/
def RefusedHarmless : Prop := ∀ (s : St Nat Nat Nat Nat Nat (Nat × Option (Int × Int)) (Nat × Option (Int × Int))) (d : Nat) (n : Str)
  (r : Option (Int × Int)), (addDerived s d n r).2 = .error .valueError → (addDerived s d n r).1 = s

/-- **C207 fails**: `addDerived` with a range and a name that exists raises `ValueError` after it has replaced the range of the existing
parameter (mcsamples.py:2325-2327): from the next update on all densities of that parameter are cut at the new limits. -/
theorem refused_fails : ¬ RefusedHarmless := by
  intro h
  have e := h exSt 1 c!"x" (some (0, 1)) (by rfl)
  exact absurd (congrArg (fun s => s.ranges.get? c!"x") e) (by decide)

/-- **C206** Without a range a refused `addDerived` changes nothing; an accepted one adds the parameter at the end. -/
theorem addDerived_plain (s : St D G M C L P X) (d' : D) (n : Str) :
    (n ∈ list s → addDerived s d' n none = (s, .error .valueError)) ∧
    (n ∉ list s → ∀ v, (addDerived s d' n v).2 = .ok () ∧ list (addDerived s d' n v).1 = list s ++ [n] ∧
      (addDerived s d' n v).1.needsUpdate = true ∧
      ∀ w, v = some w → (addDerived s d' n v).1.ranges.get? n = some w) := by
  refine ⟨fun h => ?_, fun h v => ?_⟩
  · unfold addDerived; dsimp only; rw [if_pos h]
  · unfold addDerived
    cases v with
    | none =>
      dsimp only
      rw [if_neg h]
      refine ⟨rfl, ?_, rfl, fun w e => by cases e⟩
      change (s.names ++ [(n, true)]).map (·.1) = _
      rw [List.map_append]; rfl
    | some v =>
      dsimp only
      rw [if_neg (show n ∉ list ({ s with ranges := s.ranges.set n v } : St D G M C L P X) from h)]
      refine ⟨rfl, ?_, rfl, fun w e => ?_⟩
      · change (s.names ++ [(n, true)]).map (·.1) = _
        rw [List.map_append]; rfl
      · cases e
        exact Dict.get?_set_self _ _ _

/-- the object returned by `getMargeStats` keeps its values -/
def ReturnedKept : Prop := ∀ (ops more : List (Op Nat Nat)),
  margeView (run exLib (margeStats exLib (run exLib exSt ops)).1 more) = (margeStats exLib (run exLib exSt ops)).2

/-- **C207 fails**: the `MargeStats` object returned earlier changes when the samples are filtered and limits are asked for again: it holds the
list of parameters of the samples (`m.names = self.paramNames.names`, mcsamples.py:2118; likewise `getLikeStats`,
mcsamples.py:2023), so results before and after a cut cannot be compared. -/
theorem returned_object_fails : ¬ ReturnedKept := by
  intro h
  exact absurd (h [] [.setData 2, .updateBase, .marge]) (by decide)

end Verif.StatCache
