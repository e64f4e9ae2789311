import Verif.Model.LoadCache
import Verif.Props.ChainFiles
import Mathlib.Data.List.Induction

/-!
# When a cached analysis is used (C44)
-/

namespace Verif.LoadCache
open Verif.Py Verif.Py.Path Verif.ChainFiles

set_option linter.unusedSectionVars false

variable {K D : Type} [DecidableEq K]

/-! ## Dictionary updates are idempotent -/
section
variable {κ ν : Type} [DecidableEq κ]

theorem set_set (e : Dict κ ν) (k : κ) (v v2 : ν) : Dict.set (Dict.set e k v) k v2 = Dict.set e k v2 := by
  induction e with
  | nil => simp [Dict.set]
  | cons x e ih =>
    obtain ⟨a, b⟩ := x
    by_cases h : a = k <;> simp [Dict.set, h, ih]

theorem set_comm {e : Dict κ ν} {k k2 : κ} (v v2 : ν) (hne : k2 ≠ k) (h : k2 ∈ Dict.keys e) :
    Dict.set (Dict.set e k v) k2 v2 = Dict.set (Dict.set e k2 v2) k v := by
  induction e with
  | nil => simp at h
  | cons x e ih =>
    obtain ⟨a, b⟩ := x
    by_cases h1 : a = k
    · subst h1
      have : a ≠ k2 := Ne.symm hne
      simp [Dict.set, this]
    · by_cases h2 : a = k2
      · subst h2; simp [Dict.set, h1]
      · have : k2 ∈ Dict.keys e := by
          rcases List.mem_cons.mp h with h | h
          · exact absurd h.symm h2
          · exact h
        simp [Dict.set, h1, h2, ih this]

theorem set_update_set (k : κ) (v w : ν) : ∀ (l e : Dict κ ν), (∀ x ∈ Dict.keys l, x ∈ Dict.keys e) →
    Dict.set (Dict.update (Dict.set e k v) l) k w = Dict.set (Dict.update e l) k w
  | [], e, _ => set_set e k v w
  | (k2, v2) :: l, e, h => by
    unfold Dict.update
    rw [List.foldl_cons, List.foldl_cons]
    by_cases hk : k2 = k
    · subst hk; rw [set_set]
    · rw [set_comm v v2 hk (h k2 List.mem_cons_self)]
      exact set_update_set k v w l (Dict.set e k2 v2) fun x hx => by
        rw [Dict.mem_keys_set]; exact Or.inr (h x (List.mem_cons_of_mem _ hx))

theorem mem_keys_update : ∀ {l e : Dict κ ν} {x : κ}, x ∈ Dict.keys (Dict.update e l) ↔ x ∈ Dict.keys e ∨ x ∈ Dict.keys l
  | [], e, x => by simp [Dict.update]
  | (k, v) :: l, e, x => by
    unfold Dict.update
    rw [List.foldl_cons]
    have := mem_keys_update (l := l) (e := Dict.set e k v) (x := x)
    unfold Dict.update at this
    rw [this, Dict.mem_keys_set, Dict.keys_cons, List.mem_cons]
    constructor
    · rintro ((h | h) | h)
      · exact Or.inr (Or.inl h)
      · exact Or.inl h
      · exact Or.inr (Or.inr h)
    · rintro (h | h | h)
      · exact Or.inl (Or.inr h)
      · exact Or.inl (Or.inl h)
      · exact Or.inr h

theorem update_update (d : Dict κ ν) (l : Dict κ ν) : Dict.update (Dict.update d l) l = Dict.update d l := by
  induction l using List.reverseRecOn with
  | nil => rfl
  | append_singleton l x ih =>
    obtain ⟨k, v⟩ := x
    have e : ∀ a : Dict κ ν, Dict.update a (l ++ [(k, v)]) = Dict.set (Dict.update a l) k v := by
      intro a; unfold Dict.update; rw [List.foldl_append]; rfl
    rw [e, e, set_update_set _ _ _ _ _ (fun x hx => mem_keys_update.mpr (Or.inr hx)), ih]
end

/-- the cache is newer than every existing file of the list, and at least one of them exists -/
def Newer (fs : FS K D) (files : List Str) (t : Nat) : Prop :=
  (∃ p ∈ files, (fs p).isSome) ∧ ∀ p ∈ files, ∀ e, fs p = some e → e.1 < t

theorem foldl_max_lt {t : Nat} : ∀ {l : List Nat} {a : Nat}, l.foldl max a < t ↔ a < t ∧ ∀ x ∈ l, x < t
  | [], a => by simp
  | b :: l, a => by
    rw [List.foldl_cons, foldl_max_lt]
    simp only [List.forall_mem_cons]
    constructor
    · rintro ⟨h1, h2⟩; exact ⟨by omega, by omega, h2⟩
    · rintro ⟨h1, h2, h3⟩; exact ⟨by omega, h3⟩

theorem mem_mtimes {fs : FS K D} {files : List Str} {x : Nat} :
    x ∈ mtimes fs files ↔ ∃ p ∈ files, ∃ e, fs p = some e ∧ e.1 = x := by
  unfold mtimes
  simp only [List.mem_filterMap, Option.map_eq_some_iff]

theorem lastModified_lt {fs : FS K D} {files : List Str} {t : Nat} :
    (∃ last, lastModified fs files = .ok last ∧ last < t) ↔ Newer fs files t := by
  unfold lastModified Newer
  have hm := @mem_mtimes K D _ fs files
  cases hl : mtimes fs files with
  | nil =>
    constructor
    · rintro ⟨_, h, _⟩; cases h
    · rintro ⟨⟨p, hp, hs⟩, _⟩
      obtain ⟨e, he⟩ := Option.isSome_iff_exists.mp hs
      have := (hm (x := e.1)).mpr ⟨p, hp, e, he, rfl⟩
      rw [hl] at this; simp at this
  | cons a l =>
    constructor
    · rintro ⟨_, h, hlt⟩
      cases h
      rw [foldl_max_lt] at hlt
      constructor
      · obtain ⟨p, hp, e, he, _⟩ := hm.mp (hl ▸ List.mem_cons_self : a ∈ mtimes fs files)
        exact ⟨p, hp, by simp [he]⟩
      · intro p hp e he
        have := hm.mpr ⟨p, hp, e, he, rfl⟩
        rw [hl] at this
        rcases List.mem_cons.mp this with h | h
        · omega
        · exact hlt.2 _ h
    · rintro ⟨_, h⟩
      refine ⟨_, rfl, foldl_max_lt.mpr ?_⟩
      have : ∀ x ∈ mtimes fs files, x < t := by
        intro x hx
        obtain ⟨p, hp, e, he, rfl⟩ := hm.mp hx
        exact h p hp e he
      rw [hl] at this
      exact ⟨this a List.mem_cons_self, fun x hx => this x (List.mem_cons_of_mem _ hx)⟩

/-- the cached object `m`, written at time `t`, may stand for the analysis with settings `cfg` -/
structure Usable (w : World K D) (fs : FS K D) (root : Str) (cfg : Cfg K) (all : List Str) (t : Nat) (m : MC K D) : Prop where
  newer : Newer fs all t
  version : m.version = w.version
  burn : (w.props (textOf fs (root ++ c!".properties.ini")) (cfg.ignoreRows, cfg.minWeightRatio)) =
    (m.cfg.ignoreRows, m.cfg.minWeightRatio)

/-- reading the chains now, whatever the cache says -/
def Fresh (w : World K D) (fs : FS K D) (root : Str) (cfg : Cfg K) (files : List Str) (m : MC K D) : Prop :=
  files ≠ [] ∧ ∃ r, r = w.props (textOf fs (root ++ c!".properties.ini")) (cfg.ignoreRows, cfg.minWeightRatio) ∧
    w.read r.1 r.2 (files.map (fun f => (textOf fs f).getD [])) = some m.data ∧
    m.version = w.version ∧ m.cfg = { cfg with ignoreRows := r.1, minWeightRatio := r.2 } ∧
    m.doneContours = cfg.contours ∧ m.ranges = (w.ranges (textOf fs (root ++ c!".ranges"))).update cfg.limits

theorem readFresh_iff {w : World K D} {fs : FS K D} {root : Str} {cfg : Cfg K} {files : List Str} {m : MC K D} :
    readFresh w fs root cfg files = .ok m ↔ Fresh w fs root cfg files m := by
  unfold readFresh Fresh effective
  cases files with
  | nil => simp
  | cons f fl =>
    simp only [List.isEmpty_cons, Bool.false_eq_true, if_false]
    generalize w.props (textOf fs (root ++ c!".properties.ini")) (cfg.ignoreRows, cfg.minWeightRatio) = r
    constructor
    · intro h
      split at h
      · cases h
      · rename_i d hd
        cases h
        exact ⟨by simp, r, rfl, hd, rfl, rfl, rfl, rfl⟩
    · rintro ⟨_, _, rfl, h1, h2, h3, h4, h5⟩
      rw [h1]
      obtain ⟨v, c, d, rg, dc⟩ := m
      simp only at h2 h3 h4 h5
      subst h2 h3 h4 h5
      rfl

theorem fromCache_iff {w : World K D} {fs : FS K D} {root : Str} {cfg : Cfg K} {f : File K D} {m : MC K D} :
    fromCache w (effective w fs root cfg) cfg f = some m ↔
      ∃ m0, f = .pickle m0 ∧ m0.version = w.version ∧
        (w.props (textOf fs (root ++ c!".properties.ini")) (cfg.ignoreRows, cfg.minWeightRatio)) =
          (m0.cfg.ignoreRows, m0.cfg.minWeightRatio) ∧
        m = updateSettings m0 cfg (decide (cfg.contours ≠ m0.cfg.contours)) := by
  unfold fromCache effective
  cases f with
  | text t => simp
  | pickle m0 =>
    simp only [File.pickle.injEq, exists_eq_left', Prod.ext_iff]
    split
    · rename_i h
      simp only [Option.some.injEq]
      constructor
      · rintro rfl; exact ⟨h.1, h.2, rfl⟩
      · rintro ⟨_, _, rfl⟩; rfl
    · rename_i h
      simp only [reduceCtorEq, false_iff, not_and]
      intro h1 h2
      exact absurd ⟨h1, h2⟩ h

/-- **C44**: a load either uses the cached object, exactly when caching is allowed and the object is usable, and then
leaves the files alone; or it reads the chains again, and writes (or removes) the cache. -/
theorem load_spec {w : World K D} {fs fs' : FS K D} {d : Dirs} {root cachefile : Str} {cfg : Cfg K} {noCache : Bool}
    {now : Nat} {m : MC K D} (h : loadMCSamples w fs d root cachefile cfg noCache now = .ok (m, fs')) :
    ∃ files all, findFiles d root = .ok files ∧ allFiles fs d root files = .ok all ∧
      ((∃ t m0, noCache = false ∧ fs cachefile = some (t, .pickle m0) ∧ Usable w fs root cfg all t m0 ∧
          m = updateSettings m0 cfg (decide (cfg.contours ≠ m0.cfg.contours)) ∧ fs' = fs) ∨
       ((¬ ∃ t m0, noCache = false ∧ fs cachefile = some (t, .pickle m0) ∧ Usable w fs root cfg all t m0) ∧
          Fresh w fs root cfg files m ∧ (∀ p, p ≠ cachefile → fs' p = fs p) ∧
          fs' cachefile = if noCache then none else some (now, .pickle m))) := by
  unfold loadMCSamples at h
  cases hf : findFiles d root with
  | error e => simp [hf, bind, Except.bind] at h
  | ok files =>
    cases ha : allFiles fs d root files with
    | error e => simp [hf, ha, bind, Except.bind] at h
    | ok all =>
      refine ⟨files, all, rfl, ha, ?_⟩
      simp only [hf, ha, bind, Except.bind] at h
      -- the fresh branch
      have fresh : readAndStore w fs root cachefile cfg noCache now files = .ok (m, fs') →
          Fresh w fs root cfg files m ∧ (∀ p, p ≠ cachefile → fs' p = fs p) ∧
          fs' cachefile = if noCache then none else some (now, .pickle m) := by
        intro hx
        unfold readAndStore at hx
        cases hr : readFresh w fs root cfg files with
        | error e => rw [hr] at hx; cases hx
        | ok m' =>
          rw [hr] at hx
          cases noCache with
          | true =>
            cases hx
            exact ⟨readFresh_iff.mp hr, fun p hp => by simp [FS.set, hp], by simp [FS.set]⟩
          | false =>
            cases hx
            exact ⟨readFresh_iff.mp hr, fun p hp => by simp [FS.set, hp], by simp [FS.set]⟩
      cases hn : noCache with
      | true =>
        right
        subst hn
        simp only [pure, Except.pure] at h
        exact ⟨by simp, fresh h⟩
      | false =>
        subst hn
        cases hc : fs cachefile with
        | none =>
          right
          simp only [hc, pure, Except.pure] at h
          exact ⟨by simp, fresh h⟩
        | some e =>
          obtain ⟨t, f⟩ := e
          simp only [hc, pure, Except.pure] at h
          cases hl : lastModified fs all with
          | error e => simp [hl] at h
          | ok last =>
            simp only [hl] at h
            by_cases hlt : last < t
            · rw [if_pos hlt] at h
              have hN : Newer fs all t := lastModified_lt.mp ⟨last, hl, hlt⟩
              cases hm : fromCache w (effective w fs root cfg) cfg f with
              | some m1 =>
                left
                rw [hm] at h
                simp only [Except.ok.injEq, Prod.mk.injEq] at h
                obtain ⟨rfl, rfl⟩ := h
                obtain ⟨m0, rfl, h1, h2, h3⟩ := fromCache_iff.mp hm
                exact ⟨t, m0, rfl, rfl, ⟨hN, h1, h2⟩, h3, rfl⟩
              | none =>
                right
                rw [hm] at h
                refine ⟨?_, fresh h⟩
                rintro ⟨t', m0, _, he, hu⟩
                simp only [Option.some.injEq, Prod.mk.injEq] at he
                obtain ⟨rfl, rfl⟩ := he
                have := (fromCache_iff (fs := fs) (root := root)).mpr ⟨m0, rfl, hu.version, hu.burn, rfl⟩
                rw [this] at hm
                cases hm
            · rw [if_neg hlt] at h
              right
              refine ⟨?_, fresh h⟩
              rintro ⟨t', m0, _, he, hu⟩
              simp only [Option.some.injEq, Prod.mk.injEq] at he
              obtain ⟨rfl, rfl⟩ := he
              obtain ⟨l2, h1, h2⟩ := lastModified_lt.mpr hu.newer
              rw [hl] at h1
              cases h1
              exact hlt h2

/-- the files of the chain after the cache was written at time `t`: each is as it was, or has been written since -/
def Touched (fs1 fs2 : FS K D) (cachefile : Str) (t : Nat) : Prop :=
  ∀ p, p ≠ cachefile → fs2 p = fs1 p ∨ ∃ e, fs2 p = some e ∧ t ≤ e.1

theorem allFiles_mem {fs : FS K D} {d : Dirs} {root : Str} {files all : List Str} (h : allFiles fs d root files = .ok all) :
    (∀ f ∈ files, f ∈ all) ∧ ((fs (root ++ c!".paramnames")).isSome → root ++ c!".ranges" ∈ all ∧ root ++ c!".properties.ini" ∈ all) := by
  unfold allFiles at h
  split at h
  · cases h
    refine ⟨fun f hf => List.mem_append_left _ hf, fun _ => ⟨?_, ?_⟩⟩
    · exact List.mem_append_right _ (by simp)
    · exact List.mem_append_right _ (by simp)
  · rename_i hn
    cases hy : yamlFiles d root with
    | error e => simp [hy, bind, Except.bind] at h
    | ok y =>
      simp only [hy, bind, Except.bind, pure, Except.pure] at h
      cases h
      exact ⟨fun f hf => List.mem_append_left _ hf, fun h => absurd h hn⟩

/-- **C44**: let the chains be read at time `t`, with the cache written.  If afterwards files only change by being written
anew, the directory holds the same files, and the limits in the settings are the same, then a later load, cached or not, gives the data,
ranges and contours that reading the chains at that moment would give. -/
theorem cache_sound {w : World K D} {fs0 fs1 fs2 fs3 : FS K D} {d : Dirs} {root cachefile : Str} {cfg0 cfg : Cfg K}
    {t now : Nat} {m0 m : MC K D} {files : List Str}
    (hfiles : findFiles d root = .ok files)
    (h0 : Fresh w fs0 root cfg0 files m0)
    (h1 : (∀ p, p ≠ cachefile → fs1 p = fs0 p) ∧ fs1 cachefile = some (t, .pickle m0))
    (h2 : Touched fs1 fs2 cachefile t) (h2c : fs2 cachefile = fs1 cachefile)
    (hnc : cachefile ≠ root ++ c!".ranges" ∧ cachefile ≠ root ++ c!".properties.ini" ∧ cachefile ∉ files)
    (hpn : (fs2 (root ++ c!".paramnames")).isSome)
    (hlim : cfg.limits = cfg0.limits)
    (h3 : loadMCSamples w fs2 d root cachefile cfg false now = .ok (m, fs3)) :
    ∃ m', Fresh w fs2 root cfg files m' ∧ m.data = m'.data ∧ m.ranges = m'.ranges ∧ m.doneContours = m'.doneContours ∧
      m.version = m'.version := by
  obtain ⟨files', all, hf, ha, hcase⟩ := load_spec h3
  rw [hfiles] at hf
  cases hf
  rcases hcase with ⟨t', m0', _, hc, hu, rfl, _⟩ | ⟨_, hfr, _⟩
  · rw [h2c, h1.2] at hc
    cases hc
    obtain ⟨hall, hpr⟩ := allFiles_mem ha
    obtain ⟨hr, hp⟩ := hpr hpn
    -- unchanged files
    have same : ∀ p, p ∈ all → p ≠ cachefile → fs2 p = fs0 p := by
      intro p hpa hpc
      rcases h2 p hpc with h | ⟨e, he, hle⟩
      · rw [h, h1.1 p hpc]
      · exact absurd (hu.newer.2 p hpa e he) (by omega)
    obtain ⟨hne, r, hrr, hread, hv, hcfg, hdc, hrg⟩ := h0
    have s1 : textOf fs2 (root ++ c!".ranges") = textOf fs0 (root ++ c!".ranges") := by
      unfold textOf; rw [same _ hr (Ne.symm hnc.1)]
    have s2 : textOf fs2 (root ++ c!".properties.ini") = textOf fs0 (root ++ c!".properties.ini") := by
      unfold textOf; rw [same _ hp (Ne.symm hnc.2.1)]
    have s3 : files.map (fun f => (textOf fs2 f).getD []) = files.map (fun f => (textOf fs0 f).getD []) := by
      apply List.map_congr_left
      intro f hf
      unfold textOf
      rw [same f (hall f hf) (by rintro rfl; exact hnc.2.2 hf)]
    have hb := hu.burn
    rw [s2, hcfg] at hb
    dsimp only at hb
    refine ⟨{ version := m0.version, cfg := { cfg with ignoreRows := r.1, minWeightRatio := r.2 }, data := m0.data
              ranges := (w.ranges (textOf fs0 (root ++ c!".ranges"))).update cfg.limits, doneContours := cfg.contours }, ?_, ?_, ?_, ?_, ?_⟩
    · refine ⟨hne, r, ?_, ?_, hv, rfl, rfl, ?_⟩
      · rw [s2, hb]
      · rw [s3]; exact hread
      · rw [s1]
    · unfold updateSettings; dsimp only; split <;> rfl
    · unfold updateSettings; dsimp only
      split
      · rw [hrg, hlim]
        exact update_update _ _
      · rw [hrg, hlim]
    · unfold updateSettings; dsimp only
      split
      · rfl
      · rename_i hd
        rw [hdc]
        simp only [ne_eq, decide_not, Bool.not_eq_true', decide_eq_false_iff_not, not_not] at hd
        rw [hd, hcfg]
    · unfold updateSettings; dsimp only; split <;> rfl
  · exact ⟨m, hfr, rfl, rfl, rfl, rfl⟩

/-- **C44**: which chains are loaded: all files named by `_` and a number if there is one, otherwise those named by `.` and a
number. -/
theorem findFiles_spec {d : Dirs} {root : Str} {files : List Str} (h : findFiles d root = .ok files) :
    ∃ names used : List Str, ∃ sep : Str, d.ls (dirname root) = some names ∧ used.Sublist names ∧
      files = used.map (Path.join (dirname root)) ∧
      (∀ f, f ∈ used ↔ f ∈ names ∧ ∃ n, IsChain (rootBase root) (rootSep root { separator := sep }) c!".txt" n f) ∧
      (sep = c!"_" ∨ (sep = c!"." ∧ ∀ f ∈ names, ¬ ∃ n, IsChain (rootBase root) (rootSep root {}) c!".txt" n f)) := by
  have al : ∀ (sep : Str) (n : Nat), Allowed { separator := sep } n := by
    intro sep n
    refine ⟨?_, ?_, ?_, ?_⟩
    · intro l h; cases h
    · intro l h; cases h
    · exact Int.natCast_nonneg n
    · intro h; exact absurd (show (0 : Int) ≤ -1 from h) (by decide)
  unfold findFiles at h
  cases hc : chainFiles d root {} with
  | error e => rw [hc] at h; cases h
  | ok fs =>
    rw [hc] at h
    simp only [bind, Except.bind] at h
    obtain ⟨names, used, h1, h2, h3, h4⟩ := chainFiles_spec hc
    by_cases he : fs.isEmpty = true
    · rw [if_pos he] at h
      obtain ⟨names', used', g1, g2, g3, g4⟩ := chainFiles_spec h
      rw [h1] at g1
      cases g1
      refine ⟨names, used', c!".", h1, g2, g3, ?_, Or.inr ⟨rfl, ?_⟩⟩
      · intro f
        rw [g4]
        exact and_congr_right fun _ => exists_congr fun n => and_iff_left (al _ n)
      · rintro f hf ⟨n, hn⟩
        have hu : f ∈ used := (h4 f).mpr ⟨hf, n, hn, al _ n⟩
        rw [List.isEmpty_iff] at he
        rw [he] at h3
        cases used with
        | nil => simp at hu
        | cons a l => simp at h3
    · rw [if_neg he] at h
      cases h
      refine ⟨names, used, c!"_", h1, h2, h3, ?_, Or.inl rfl⟩
      intro f
      rw [h4]
      exact and_congr_right fun _ => exists_congr fun n => and_iff_left (al _ n)

/-- **C44**: for a chain without `.paramnames` file the cache is only used if it is newer than every Cobaya settings file of
the chain (`..updated.yaml` and `..full.yaml` in any case). -/
theorem cobaya_settings_watched {w : World K D} {fs : FS K D} {d : Dirs} {root cachefile : Str} {cfg : Cfg K}
    {now t : Nat} {m m0 : MC K D} {names : List Str} {f : Str} {e : Nat × File K D}
    (hpn : fs (root ++ c!".paramnames") = none) (hc : fs cachefile = some (t, .pickle m0))
    (hl : d.ls (dirname root) = some names) (hf : f ∈ names) (hb : basename root <+: f)
    (hy : c!"updated.yaml" <:+ f.map Char.toLower ∨ c!"full.yaml" <:+ f.map Char.toLower)
    (he : fs (Path.join (dirname root) f) = some e) (hold : t ≤ e.1)
    (h : ∃ fs', loadMCSamples w fs d root cachefile cfg false now = .ok (m, fs')) :
    ∃ files, findFiles d root = .ok files ∧ Fresh w fs root cfg files m := by
  obtain ⟨fs', h⟩ := h
  obtain ⟨files, all, h1, h2, h3⟩ := load_spec h
  refine ⟨files, h1, ?_⟩
  rcases h3 with ⟨t', m0', _, hc', hu, _⟩ | ⟨_, h3, _⟩
  · rw [hc] at hc'
    cases hc'
    have hin : Path.join (dirname root) f ∈ all := by
      unfold allFiles at h2
      rw [if_neg (by rw [hpn]; simp)] at h2
      unfold yamlFiles Dirs.listdir at h2
      simp only [hl, bind, Except.bind, pure, Except.pure] at h2
      cases h2
      refine List.mem_append_right _ (List.mem_map_of_mem (List.mem_filter.mpr ⟨hf, ?_⟩))
      rw [Bool.and_eq_true, Bool.or_eq_true]
      refine ⟨List.isPrefixOf_iff_prefix.mpr hb, ?_⟩
      rcases hy with hy | hy
      · exact Or.inl (List.isSuffixOf_iff_suffix.mpr hy)
      · exact Or.inr (List.isSuffixOf_iff_suffix.mpr hy)
    exact absurd (hu.newer.2 _ hin e he) (by omega)
  · exact h3

/-! ## Non-vacuity and failures -/

/-- a small world: data are the texts read, one file `c/r_1.txt` -/
def tw : World Nat (Nat × List Str) where
  version := 22
  read := fun a _ l => some (a, l)
  ranges := fun _ => []
  props := fun _ b => b

def td : Dirs := ⟨fun p => if p = c!"c" then some [c!"r_1.txt"] else none⟩
def td2 : Dirs := ⟨fun p => if p = c!"c" then some [c!"r_1.txt", c!"r_2.txt"] else none⟩

def tf (t : Nat) (a : Str) : FS Nat (Nat × List Str) := fun p =>
  if p = c!"c/r_1.txt" then some (t, .text a)
  else if p = c!"c/r_2.txt" then some (1, .text c!"two")
  else if p = c!"c/r.paramnames" then some (1, .text []) else none

def tc : Cfg Nat := ⟨0, 0, [1, 2], []⟩

/-- load at time 5, then again (with other files, settings) at time 9 -/
def twice (d1 d2 : Dirs) (f2 : FS Nat (Nat × List Str)) (c1 c2 : Cfg Nat) : Option (Nat × List Str) × Dict Str (Nat × Nat) :=
  match loadMCSamples tw (tf 1 c!"one") d1 c!"c/r" c!"c/r.cache" c1 false 5 with
  | .error _ => (none, [])
  | .ok (_, fs) =>
    match loadMCSamples tw (FS.set f2 c!"c/r.cache" (fs c!"c/r.cache")) d2 c!"c/r" c!"c/r.cache" c2 false 9 with
    | .error _ => (none, [])
    | .ok (m, _) => (some m.data, m.ranges)

/-- the cache is used when nothing changed, and not when the chain or the burn-in changed -/
example : twice td td (tf 1 c!"one") tc tc = (some (0, [c!"one"]), []) := by decide +kernel
example : twice td td (tf 7 c!"new") tc tc = (some (0, [c!"new"]), []) := by decide +kernel
example : twice td td (tf 1 c!"one") tc { tc with ignoreRows := 3 } = (some (3, [c!"one"]), []) := by decide +kernel

/-- a Cobaya chain: a settings file written after the cache makes the chains be read again -/
def tdy : Dirs := ⟨fun p => if p = c!"c" then some [c!"r.1.txt", c!"r.updated.yaml"] else none⟩
def tfy (t : Nat) (a : Str) : FS Nat (Nat × List Str) := fun p =>
  if p = c!"c/r.1.txt" then some (1, .text a)
  else if p = c!"c/r.updated.yaml" then some (t, .text [])
  else if p = c!"c/r.cache" then some (5, .pickle ⟨22, tc, (0, [c!"one"]), [], [1, 2]⟩) else none
example : (loadMCSamples tw (tfy 7 c!"new") tdy c!"c/r" c!"c/r.cache" tc false 9).map (·.1.data) = .ok (0, [c!"new"]) := by
  decide +kernel
example : (loadMCSamples tw (tfy 3 c!"new") tdy c!"c/r" c!"c/r.cache" tc false 9).map (·.1.data) = .ok (0, [c!"one"]) := by
  decide +kernel

/-- **C44**: a further chain file with an old time stamp (a copied chain) is not noticed. -/
theorem new_chain_ignored_fails : twice td td2 (tf 1 c!"one") tc tc = (some (0, [c!"one"]), []) ∧
    (loadMCSamples tw (tf 1 c!"one") td2 c!"c/r" c!"c/r.cache" tc true 9).map (·.1.data) = .ok (0, [c!"one", c!"two"]) := by
  constructor <;> decide +kernel

/-- **C44**: parameter limits in the settings are ignored by a cached load, and limits of an earlier load persist, even when the
contours change and the statistics are computed again. -/
theorem stale_limits_fails :
    twice td td (tf 1 c!"one") tc { tc with limits := [(c!"x", 1, 2)] } = (some (0, [c!"one"]), []) ∧
    twice td td (tf 1 c!"one") { tc with limits := [(c!"x", 1, 2)] } { tc with contours := [7] } =
      (some (0, [c!"one"]), [(c!"x", 1, 2)]) := by constructor <;> decide +kernel

end Verif.LoadCache
