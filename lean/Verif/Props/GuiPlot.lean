import Verif.Model.GuiPlot
import Verif.Props.BatchArgs

/-!
# C231, C232: plots and scripts of the graphical interface
-/

namespace Verif.GuiPlot
open Verif.Py

/-! ## Plots -/

/-- the selection is one that the interface describes: two or more x for a triangle; one x, y and z; else any x -/
def Valid (styles : Styles) (s : Sel) : Prop :=
  s.roots ≠ [] ∧ (if s.triangle = true then 2 ≤ s.xs.length
    else if s.kind = .z then s.xs.length = 1 ∧ s.ys.length = 1 ∧ s.z ≠ [] ∧ (∃ l, styles = .list l)
    else s.xs ≠ [])

theorem plotFlat_ok (s : Sel) (h : s.xs ≠ []) : ∃ r, plotFlat s = .ok r := by
  unfold plotFlat
  dsimp only
  rw [if_neg h]
  split
  · exact ⟨_, rfl⟩
  · split
    · exact ⟨_, rfl⟩
    · split
      · split <;> exact ⟨_, rfl⟩
      · split
        · split <;> exact ⟨_, rfl⟩
        · exact ⟨_, rfl⟩

/-- **C231**: there is a plot exactly for valid selections -/
theorem plotData_ok (styles : Styles) (s : Sel) : (∃ r, plotData styles s = .ok r) ↔ Valid styles s := by
  unfold plotData Valid
  by_cases hr : s.roots = []
  · rw [if_pos hr]
    exact ⟨fun ⟨_, h⟩ => (by cases h), fun h => absurd hr h.1⟩
  rw [if_neg hr]
  by_cases ht : s.triangle = true
  · rw [if_pos ht, if_pos ht]
    unfold plotTriangle
    dsimp only
    by_cases hl : 1 < s.xs.length
    · rw [if_pos hl]; exact ⟨fun _ => ⟨hr, hl⟩, fun _ => ⟨_, rfl⟩⟩
    · rw [if_neg hl]; exact ⟨fun ⟨_, h⟩ => (by cases h), fun h => absurd h.2 hl⟩
  · rw [if_neg ht, if_neg ht]
    by_cases hz : s.kind = .z
    · rw [if_pos hz, if_pos hz]
      unfold plotFour
      constructor
      · rintro ⟨r, h⟩
        split at h
        · rename_i x y hx hy
          split at h
          · cases h
          · rename_i h3
            dsimp only at h
            cases styles with
            | list l => exact ⟨hr, by rw [hx]; rfl, by rw [hy]; rfl, h3, l, rfl⟩
            | map => cases h
        · cases h
      · rintro ⟨_, h1, h2, h3, l, rfl⟩
        obtain ⟨x, hx⟩ := List.length_eq_one_iff.mp h1
        obtain ⟨y, hy⟩ := List.length_eq_one_iff.mp h2
        rw [hx, hy]
        dsimp only
        rw [if_neg h3]
        exact ⟨_, rfl⟩
    · rw [if_neg hz, if_neg hz]
      constructor
      · rintro ⟨r, h⟩
        refine ⟨hr, fun hx => ?_⟩
        unfold plotFlat at h
        dsimp only at h
        rw [if_pos hx] at h
        cases h
      · rintro ⟨_, h⟩
        exact plotFlat_ok s h

/-- calls that draw the same: colours to compare with do not matter for one root -/
inductive Same : Call → Call → Prop
  | refl (c : Call) : Same c c
  | four (r : Str) (p : List Str) (c c' : Option (List Str)) (sh : Bool) : Same (.four [r] p c sh) (.four [r] p c' sh)

/-- not a plot of single parameters with a legend of many roots -/
def FewRoots (s : Sel) : Prop := s.triangle = true ∨ s.kind = .z ∨ s.ys ≠ [] ∨ s.roots.length ≤ 3

theorem plotFlat_same (s : Sel) (c w : Call) (h : plotFlat s = .ok (c, w)) (hf : s.ys ≠ [] ∨ s.roots.length ≤ 3) : c = w := by
  unfold plotFlat at h
  dsimp only at h
  split at h
  · cases h
  split at h
  · rename_i hy
    have : ¬ 3 < s.roots.length := by rcases hf with h | h
                                      · exact absurd hy h
                                      · omega
    rw [if_neg this] at h
    injection h with h; injection h with h1 h2; rw [← h1, ← h2]
  split at h
  · injection h with h; injection h with h1 h2; rw [← h1, ← h2]
  split at h
  · split at h <;> (injection h with h; injection h with h1 h2; rw [← h1, ← h2])
  · split at h
    · split at h <;> (injection h with h; injection h with h1 h2; rw [← h1, ← h2])
    · injection h with h; injection h with h1 h2; rw [← h1, ← h2]

/-- **C232** in part: the script draws what is on the screen, but for one-dimensional plots with many roots -/
theorem script_same_partial (styles : Styles) (s : Sel) (c w : Call) (h : plotData styles s = .ok (c, w)) (hc : s.color ≠ []) (hf : FewRoots s) : Same c w := by
  unfold plotData at h
  split at h
  · cases h
  split at h
  · unfold plotTriangle at h
    dsimp only at h
    split at h
    · injection h with h; injection h with h1 h2
      rw [← h1, ← h2]
      by_cases hk : s.kind = .color
      · rw [if_pos hk]; dsimp only; rw [if_neg hc]; exact .refl _
      · rw [if_neg hk]; exact .refl _
    · cases h
  split at h
  · unfold plotFour at h
    split at h
    · split at h
      · cases h
      · dsimp only at h
        split at h
        · cases h
        · injection h with h; injection h with h1 h2
          rw [← h1, ← h2]
          by_cases h1 : s.roots.length = 1
          · obtain ⟨r, hr⟩ := List.length_eq_one_iff.mp h1
            rw [hr]; exact .four ..
          · rw [if_neg h1]; exact .refl _
    · cases h
  · rename_i ht hz
    have : s.ys ≠ [] ∨ s.roots.length ≤ 3 := by
      rcases hf with h | h | h
      · exact absurd h ht
      · exact absurd h hz
      · exact h
    rw [plotFlat_same s c w h this]
    exact .refl _

/-- the parameters of a call -/
def Call.params : Call → List Str
  | .triangle _ p w _ _ => p ++ w.toList
  | .four _ p _ _ => p
  | .one _ p _ => p
  | .rect xs ys _ _ => xs ++ ys
  | .two _ p _ _ => [p.1, p.2]
  | .twos _ l _ _ => l.flatMap (fun p => [p.1, p.2])
  | .three _ t => t
  | .threes _ l => l.flatten

def Call.roots : Call → List Str
  | .triangle r _ _ _ _ => r
  | .four r _ _ _ => r
  | .one r _ _ => r
  | .rect _ _ r _ => r
  | .two r _ _ _ => r
  | .twos r _ _ _ => r
  | .three r _ => r
  | .threes r _ => r

theorem mem_pairs (xs ys : List Str) (h1 : ¬ (1 < xs.length ∧ 1 < ys.length)) (p : Str × Str) : p ∈ pairs xs ys ↔ p.1 ∈ xs ∧ p.2 ∈ ys := by
  unfold pairs
  split
  · rw [List.mem_map, List.mem_singleton]
    constructor
    · rintro ⟨y, hy, rfl⟩; exact ⟨rfl, hy⟩
    · rintro ⟨e, h⟩; exact ⟨p.2, h, by rw [← e]⟩
  · rw [List.mem_map, List.mem_singleton]
    constructor
    · rintro ⟨y, hy, rfl⟩; exact ⟨hy, rfl⟩
    · rintro ⟨h, e⟩; exact ⟨p.1, h, by rw [← e]⟩
  · rename_i h2 h3
    have : xs = [] ∨ ys = [] := by
      cases xs with
      | nil => exact Or.inl rfl
      | cons x xs => cases ys with
        | nil => exact Or.inr rfl
        | cons y ys =>
          exfalso
          cases xs with
          | nil => exact h2 x rfl
          | cons x' xs => cases ys with
            | nil => exact h3 y rfl
            | cons y' ys => exact h1 ⟨by simp, by simp⟩
    rcases this with rfl | rfl <;> simp

/-- **C231**: all roots are plotted; every x that is selected is in the plot, and every y if it is not a triangle; everything in the plot is selected -/
theorem plotData_params (styles : Styles) (s : Sel) (c w : Call) (h : plotData styles s = .ok (c, w)) :
    c.roots = s.roots ∧ (∀ x ∈ s.xs, x ∈ c.params) ∧ (s.triangle = false → ∀ y ∈ s.ys, y ∈ c.params) ∧ (∀ p ∈ c.params, p ∈ s.xs ∨ p ∈ s.ys ∨ p = s.z ∨ p = s.color) := by
  unfold plotData at h
  split at h
  · cases h
  split at h
  · rename_i ht
    unfold plotTriangle at h
    dsimp only at h
    split at h
    · injection h with h; injection h with h1 h2
      subst h1
      refine ⟨rfl, fun x hx => List.mem_append_left _ hx, fun h' => (by rw [h'] at ht; cases ht), ?_⟩
      intro p hp
      rcases List.mem_append.mp hp with hp | hp
      · exact Or.inl hp
      · split at hp
        · exact Or.inr (Or.inr (Or.inr (by simpa using hp)))
        · cases hp
    · cases h
  split at h
  · unfold plotFour at h
    split at h
    · rename_i x y hx hy
      split at h
      · cases h
      · dsimp only at h
        split at h
        · cases h
        · injection h with h; injection h with h1 h2
          subst h1
          refine ⟨rfl, ?_, ?_, ?_⟩
          · intro a ha; rw [hx] at ha; simp [Call.params, List.mem_singleton.mp ha]
          · intro _ a ha; rw [hy] at ha; simp [Call.params, List.mem_singleton.mp ha]
          · intro p hp
            rw [hx, hy]
            simp only [Call.params, List.mem_append, List.mem_cons, List.not_mem_nil, or_false] at hp
            rcases hp with (h | h | h) | h
            · exact Or.inl (by simp [h])
            · exact Or.inr (Or.inl (by simp [h]))
            · exact Or.inr (Or.inr (Or.inl h))
            · split at h
              · cases h
              · exact Or.inr (Or.inr (Or.inr (by simpa using h)))
    · cases h
  · unfold plotFlat at h
    dsimp only at h
    split at h
    · cases h
    rename_i hx0
    split at h
    · rename_i hy
      injection h with h; injection h with h1 h2
      subst h1
      exact ⟨rfl, fun x hx => hx, fun _ y hy' => (by rw [hy] at hy'; cases hy'), fun p hp => Or.inl hp⟩
    rename_i hy0
    split at h
    · injection h with h; injection h with h1 h2
      subst h1
      refine ⟨rfl, fun x hx => List.mem_append_left _ hx, fun _ y hy => List.mem_append_right _ hy, ?_⟩
      intro p hp
      rcases List.mem_append.mp hp with hp | hp
      · exact Or.inl hp
      · exact Or.inr (Or.inl hp)
    rename_i hn
    have hm := mem_pairs s.xs s.ys hn
    obtain ⟨x0, hx0'⟩ := List.exists_mem_of_ne_nil _ hx0
    obtain ⟨y0, hy0'⟩ := List.exists_mem_of_ne_nil _ hy0
    split at h
    · have key : c.roots = s.roots ∧ c.params = ((pairs s.xs s.ys).map (fun p => [p.1, p.2, s.color])).flatten := by
        split at h
        · rename_i t ht
          injection h with h; injection h with h1 h2
          subst h1
          exact ⟨rfl, by rw [ht]; simp [Call.params]⟩
        · injection h with h; injection h with h1 h2
          subst h1
          exact ⟨rfl, rfl⟩
      have mem : ∀ a, a ∈ c.params ↔ ∃ p ∈ pairs s.xs s.ys, a = p.1 ∨ a = p.2 ∨ a = s.color := by
        intro a; rw [key.2, List.mem_flatten]
        constructor
        · rintro ⟨l, hl, ha⟩
          obtain ⟨p, hp, rfl⟩ := List.mem_map.mp hl
          exact ⟨p, hp, by simpa using ha⟩
        · rintro ⟨p, hp, ha⟩
          exact ⟨_, List.mem_map.mpr ⟨p, hp, rfl⟩, by simpa using ha⟩
      refine ⟨key.1, ?_, ?_, ?_⟩
      · intro x hx; exact (mem x).mpr ⟨(x, y0), (hm _).mpr ⟨hx, hy0'⟩, Or.inl rfl⟩
      · intro _ y hy; exact (mem y).mpr ⟨(x0, y), (hm _).mpr ⟨hx0', hy⟩, Or.inr (Or.inl rfl)⟩
      · intro a ha
        obtain ⟨p, hp, h | h | h⟩ := (mem a).mp ha
        · exact Or.inl (h ▸ ((hm p).mp hp).1)
        · exact Or.inr (Or.inl (h ▸ ((hm p).mp hp).2))
        · exact Or.inr (Or.inr (Or.inr h))
    · have key : c.roots = s.roots ∧ c.params = (pairs s.xs s.ys).flatMap (fun p => [p.1, p.2]) := by
        split at h
        · rename_i t ht
          split at h
          · injection h with h; injection h with h1 h2
            subst h1
            exact ⟨rfl, by rw [ht]; simp [Call.params]⟩
          · injection h with h; injection h with h1 h2
            subst h1
            exact ⟨rfl, by rw [ht]; rfl⟩
        · injection h with h; injection h with h1 h2
          subst h1
          exact ⟨rfl, rfl⟩
      have mem : ∀ a, a ∈ c.params ↔ ∃ p ∈ pairs s.xs s.ys, a = p.1 ∨ a = p.2 := by
        intro a; rw [key.2, List.mem_flatMap]
        constructor
        · rintro ⟨p, hp, ha⟩; exact ⟨p, hp, by simpa using ha⟩
        · rintro ⟨p, hp, ha⟩; exact ⟨p, hp, by simpa using ha⟩
      refine ⟨key.1, ?_, ?_, ?_⟩
      · intro x hx; exact (mem x).mpr ⟨(x, y0), (hm _).mpr ⟨hx, hy0'⟩, Or.inl rfl⟩
      · intro _ y hy; exact (mem y).mpr ⟨(x0, y), (hm _).mpr ⟨hx0', hy⟩, Or.inr rfl⟩
      · intro a ha
        obtain ⟨p, hp, h | h⟩ := (mem a).mp ha
        · exact Or.inl (h ▸ ((hm p).mp hp).1)
        · exact Or.inr (Or.inl (h ▸ ((hm p).mp hp).2))

/-! ## Settings -/

/-- **C231**: the settings that are written are those that differ from the defaults -/
theorem changed_spec (defaults : Settings) : ∀ (cur d : Settings), changed defaults cur = .ok d → ∀ k,
    (∀ v, Dict.get? cur k = some v → Dict.get? defaults k = some v ∨ Dict.get? d k = some v) ∧ (∀ v, (k, v) ∈ d ↔ (k, v) ∈ cur ∧ Dict.get? defaults k ≠ some v)
  | [], d, h, k => by
    cases h
    exact ⟨fun v hv => (by cases hv), fun v => by simp⟩
  | (k', v') :: rest, d, h, k => by
    unfold changed at h
    split at h
    · cases h
    rename_i d0 hd0
    split at h
    · cases h
    rename_i r hr
    have ih := changed_spec defaults rest r hr k
    injection h with h
    by_cases e : d0 = v'
    · rw [if_pos e] at h
      subst h
      refine ⟨?_, ?_⟩
      · intro v hv
        rw [Dict.get?_cons] at hv
        split at hv
        · rename_i ek; subst ek; injection hv with hv
          exact Or.inl (by rw [hd0, e, hv])
        · exact ih.1 v hv
      · intro v
        rw [ih.2, List.mem_cons]
        constructor
        · rintro ⟨h1, h2⟩; exact ⟨Or.inr h1, h2⟩
        · rintro ⟨h1 | h1, h2⟩
          · injection h1 with h3 h4
            subst h3; subst h4
            exact absurd (by rw [hd0, e]) h2
          · exact ⟨h1, h2⟩
    · rw [if_neg e] at h
      subst h
      refine ⟨?_, ?_⟩
      · intro v hv
        rw [Dict.get?_cons] at hv ⊢
        split at hv
        · rename_i ek; rw [if_pos ek]; exact Or.inr hv
        · rename_i ek; rw [if_neg ek]; exact ih.1 v hv
      · intro v
        rw [List.mem_cons, ih.2, List.mem_cons]
        constructor
        · rintro (h1 | ⟨h1, h2⟩)
          · injection h1 with h3 h4
            subst h3; subst h4
            exact ⟨Or.inl rfl, by rw [hd0]; intro h; injection h with h; exact e h⟩
          · exact ⟨Or.inr h1, h2⟩
        · rintro ⟨h1 | h1, h2⟩
          · exact Or.inl h1
          · exact Or.inr ⟨h1, h2⟩

theorem changed_WF (defaults : Settings) : ∀ (cur d : Settings), changed defaults cur = .ok d → Dict.WF cur → Dict.WF d := by
  have sub : ∀ (cur d : Settings), changed defaults cur = .ok d → d.Sublist cur := by
    intro cur
    induction cur with
    | nil => intro d h; cases h; exact List.Sublist.refl _
    | cons e rest ih =>
      intro d h
      obtain ⟨k, v⟩ := e
      unfold changed at h
      split at h
      · cases h
      split at h
      · cases h
      rename_i r hr
      injection h with h
      subst h
      split
      · exact (ih r hr).cons _
      · exact (ih r hr).cons_cons _
  intro cur d h hw
  exact List.Nodup.sublist ((sub cur d h).map _) hw

/-- **C232** in part: the script has the settings of the window, but when all are set back with an ini file -/
theorem script_settings_partial (defaults ini cur : Settings) (hasIni : Bool) (hw : Dict.WF cur) (a : Arg) (h : scriptArg defaults hasIni cur = .ok a) (hi : hasIni = false ∨ ∃ d, a = .dict d)
    (k v : Str) (hk : Dict.get? cur k = some v) : Dict.get? (readArg defaults ini a) k = some v := by
  unfold scriptArg at h
  split at h
  · cases h
  · rename_i hc
    injection h with h
    subst h
    rcases hi with hi | ⟨d, hd⟩
    · rw [hi]
      rcases ((changed_spec defaults cur [] hc k).1 v hk) with h1 | h1
      · exact h1
      · cases h1
    · split at hd <;> cases hd
  · rename_i d _ hc
    injection h with h
    subst h
    unfold readArg
    rw [Batch.get?_update (changed_WF defaults cur d hc hw)]
    rcases ((changed_spec defaults cur d hc k).1 v hk) with h1 | h1
    · cases h2 : Dict.get? d k with
      | none => exact h1
      | some v2 =>
        have hm := ((changed_spec defaults cur d hc k).2 v2).mp (Dict.mem_of_get? h2)
        have hg := Dict.get?_of_mem hw hm.1
        rw [hg] at hk
        injection hk with hk
        rw [hk]; rfl
    · rw [h1]; rfl

example : (scriptArg [(c!"n", c!"3"), (c!"s", c!"1")] false [(c!"n", c!"4"), (c!"s", c!"1")]).toOption.map (fun a => Dict.get? (readArg [(c!"n", c!"3"), (c!"s", c!"1")] [] a) c!"n") = some (some c!"4") := by decide

theorem WF_upd {d e : Settings} (h : Dict.WF d) : Dict.WF (Dict.update d e) := by
  unfold Dict.update
  induction e generalizing d with
  | nil => exact h
  | cons p e ih => exact ih (Dict.WF_set _ _ h)

/-- the analyser has what the window says -/
def Synced (w : Win) : Prop := ∀ k v, Dict.get? w.current k = some v → Dict.get? w.analyser k = some v

/-- shared settings are the same -/
def Inv (w : Win) : Prop := (w.shared = true → w.analyser = w.current) ∧ Dict.WF w.current ∧ Dict.WF w.base ∧ Dict.WF w.analyser

theorem inv_act (w : Win) (a : Act) (h : Inv w) : Inv (act w a) := by
  obtain ⟨h1, h2, h3, h4⟩ := h
  cases a with
  | update vals =>
    refine ⟨fun hs => ?_, WF_upd h2, h3, ?_⟩
    · simp only [act] at hs ⊢
      rw [if_pos hs]
    · simp only [act]
      split
      · exact WF_upd h2
      · exact WF_upd h4
  | openDir => exact ⟨fun _ => rfl, h2, h3, h2⟩
  | reset => exact ⟨fun h => (by cases h), h3, h3, h4⟩

/-- **C231**: after an update of settings or the opening of a directory samples are analysed with the settings of the window -/
theorem act_synced (w : Win) (acts : List Act) (a : Act) (h : Inv w) (ha : a ≠ .reset) : Synced ((acts ++ [a]).foldl act w) := by
  have hi : ∀ (acts : List Act) (w : Win), Inv w → Inv (acts.foldl act w) := by
    intro acts
    induction acts with
    | nil => intro w h; exact h
    | cons b acts ih => intro w h; exact ih _ (inv_act w b h)
  rw [List.foldl_append, List.foldl_cons, List.foldl_nil]
  have h := hi acts w h
  generalize acts.foldl act w = w at h
  intro k v hk
  cases a with
  | update vals =>
    simp only [act] at hk ⊢
    split
    · exact hk
    · rw [Batch.get?_update (WF_upd h.2.1), hk]; rfl
  | openDir => exact hk
  | reset => exact absurd rfl ha

example : [Act.reset, .openDir, .update [(c!"n", c!"5")]].foldl act ⟨[(c!"n", c!"3")], [(c!"n", c!"4")], [(c!"n", c!"4")], true, true⟩ =
    ⟨[(c!"n", c!"3")], [(c!"n", c!"5")], [(c!"n", c!"5")], true, false⟩ := by decide

/-! ## Strings -/

/-- **C231**: texts without quotes, backslashes and ends of lines are read from the script as they are -/
theorem readString_spec (raw : Bool) (q : Char) : ∀ (v rest : Str), (∀ c ∈ v, c ≠ q ∧ c ≠ '\\' ∧ c ≠ '\n') → readString raw q (v ++ q :: rest) = some (v, rest)
  | [], rest, _ => by
    rw [List.nil_append, readString.eq_def]
    dsimp only
    rw [if_pos rfl]
  | c :: v, rest, h => by
    obtain ⟨h1, h2, h3⟩ := h c (List.mem_cons_self ..)
    rw [List.cons_append, readString.eq_def]
    dsimp only
    rw [if_neg h1, if_neg h3, if_neg h2, readString_spec raw q v rest (fun c hc => h c (List.mem_cons_of_mem _ hc))]

/-- **C231**: directories are listed once each -/
theorem chainDirs_spec (l : List Str) : (chainDirs l).Nodup ∧ ∀ d, d ∈ chainDirs l ↔ d ∈ l := by
  have gen : ∀ (l acc : List Str), acc.Nodup → (l.foldl (fun acc d => if d ∈ acc then acc else acc ++ [d]) acc).Nodup ∧
      ∀ d, d ∈ l.foldl (fun acc d => if d ∈ acc then acc else acc ++ [d]) acc ↔ d ∈ acc ∨ d ∈ l := by
    intro l
    induction l with
    | nil => intro acc h; exact ⟨h, fun d => by simp⟩
    | cons x l ih =>
      intro acc h
      rw [List.foldl_cons]
      split
      · rename_i hx
        refine ⟨(ih acc h).1, fun d => ?_⟩
        rw [(ih acc h).2, List.mem_cons]
        constructor
        · rintro (h | h)
          · exact Or.inl h
          · exact Or.inr (Or.inr h)
        · rintro (h | rfl | h)
          · exact Or.inl h
          · exact Or.inl hx
          · exact Or.inr h
      · rename_i hx
        have hn : (acc ++ [x]).Nodup := by
          rw [List.nodup_append]
          exact ⟨h, by simp, fun a ha b hb => by rw [List.mem_singleton] at hb; subst hb; rintro rfl; exact hx ha⟩
        refine ⟨(ih _ hn).1, fun d => ?_⟩
        rw [(ih _ hn).2, List.mem_append, List.mem_singleton, List.mem_cons, or_assoc]
  obtain ⟨h1, h2⟩ := gen l [] List.nodup_nil
  exact ⟨h1, fun d => by rw [show chainDirs l = l.foldl (fun acc d => if d ∈ acc then acc else acc ++ [d]) [] from rfl, h2]; simp⟩

example : chainDirs [c!"b", c!"a", c!"b"] = [c!"b", c!"a"] := by decide

/-! ## Examples -/

def exSel : Sel := ⟨[c!"r1", c!"r2"], [c!"a"], [c!"b", c!"c"], c!"z", c!"d", false, .line, true, false, false⟩

example : plotData (.list []) exSel = .ok (.twos [c!"r1", c!"r2"] [(c!"a", c!"b"), (c!"a", c!"c")] false true, .twos [c!"r1", c!"r2"] [(c!"a", c!"b"), (c!"a", c!"c")] false true) := by decide

example : changed [(c!"smooth", c!"-1"), (c!"n", c!"3")] [(c!"n", c!"4"), (c!"smooth", c!"-1")] = .ok [(c!"n", c!"4")] := by decide

example : readString false '"' (settingLiteral c!"best" |>.drop 1) = some (c!"best", []) := by decide

/-! ## What fails -/

/-- the script draws what is on the screen -/
def ScriptSame : Prop := ∀ (styles : Styles) (s : Sel) (c w : Call), s.color ≠ [] → plotData styles s = .ok (c, w) → Same c w

/-- **C232 fails**: with more than three roots the legend of one-dimensional plots on the screen has two columns (mainwindow.py:1711-1715); the script does not say so (1718) -/
theorem legend_fails : ¬ ScriptSame := by
  intro h
  have := h (.list []) { exSel with roots := [c!"1", c!"2", c!"3", c!"4"], ys := [] } _ _ (by decide) rfl
  cases this

/-- the parameter to colour by is in the plot if it is asked for -/
def ColorUsed : Prop := ∀ (styles : Styles) (s : Sel) (c w : Call), s.kind = .color → s.ys ≠ [] → plotData styles s = .ok (c, w) → s.color ∈ c.params

/-- **C232 fails**: with several x and several y a colour parameter is ignored without a message (mainwindow.py:1720-1731) -/
theorem rectangle_color_fails : ¬ ColorUsed := by
  intro h
  have := h (.list []) { exSel with kind := .color, xs := [c!"a", c!"e"] } _ _ rfl (by decide) rfl
  revert this
  decide

/-- four-dimensional plots can be made with all styles, and with the colours of the lines -/
def FourStyles : Prop := (∀ (styles : Styles) (s : Sel), s.roots ≠ [] → s.triangle = false → s.kind = .z → s.xs.length = 1 → s.ys.length = 1 → s.z ≠ [] → ∃ r, plotData styles s = .ok r)

/-- **C232 fails**: a colour map as line styles, as in the style tab10, cannot be cut like a list (mainwindow.py:1694) -/
theorem style_map_fails : ¬ FourStyles := by
  intro h
  obtain ⟨r, hr⟩ := h .map { exSel with kind := .z, ys := [c!"b"] } (by decide) rfl rfl rfl rfl (by decide)
  cases hr

/-- the colour of a style: all but the dashes -/
def styleColor (s : Str) : Str := s.dropWhile (fun c => c == '-' || c == ':' || c == '.')

def FourColors : Prop := ∀ (l : List Str) (n : Nat), compareColors n (.list l) = .ok ((l.take (n - 1)).map styleColor)

/-- **C232 fails**: only the last letter of a style is used as its colour (mainwindow.py:1694), so that `--C0`, an example of the documentation (plots.py:93), becomes `0`, which is black -/
theorem style_color_fails : ¬ FourColors := by
  intro h
  have := h [c!"--C0"] 2
  revert this
  decide

/-- settings that can be entered can be plotted with -/
def AnySetting : Prop := ∀ (defaults cur : Settings), ∃ d, changed defaults cur = .ok d

/-- **C232 fails**: the dialog has an empty row for a further setting (mainwindow.py:2231, 2255-2260); one that the default file does not have is a `KeyError` at the next plot (868) -/
theorem new_setting_fails : ¬ AnySetting := by
  intro h
  obtain ⟨d, hd⟩ := h [] [(c!"k", c!"1")]
  cases hd

/-- the script has the settings of the window -/
def ScriptSettings : Prop := ∀ (defaults ini cur : Settings) (hasIni : Bool) (a : Arg), Dict.WF cur → scriptArg defaults hasIni cur = .ok a →
  ∀ k v, Dict.get? cur k = some v → Dict.get? (readArg defaults ini a) k = some v

/-- **C232 fails**: if all settings of an ini file are set back to the defaults the script names the ini file (mainwindow.py:1614-1615) -/
theorem ini_back_fails : ¬ ScriptSettings := by
  intro h
  have := h [(c!"k", c!"1")] [(c!"k", c!"2")] [(c!"k", c!"1")] true .file (by unfold Dict.WF; decide) rfl c!"k" c!"1" rfl
  revert this
  decide

/-- the plot has the settings of the window -/
def AlwaysSynced : Prop := ∀ (w : Win) (acts : List Act), Inv w → Synced w → Synced (acts.foldl act w)

/-- **C232 fails**: "Reset analysis settings" makes a copy of the first settings (mainwindow.py:951-955) of which the plotter is not told: plots keep the settings from before, their scripts have the others -/
theorem reset_fails : ¬ AlwaysSynced := by
  intro h
  have := h ⟨[(c!"k", c!"1")], [(c!"k", c!"1")], [(c!"k", c!"1")], true, true⟩ [.update [(c!"k", c!"2")], .reset]
    ⟨fun _ => rfl, by unfold Dict.WF; decide, by unfold Dict.WF; decide, by unfold Dict.WF; decide⟩ (fun k v h => h) c!"k" c!"1" rfl
  revert this
  decide

/-- settings that are changed in the window are used -/
def ChangedUsed : Prop := ∀ (w : Win) (vals own : Settings) (acts : List Act) (k v : Str), Inv w → Dict.WF vals → Dict.get? vals k = some v → (∀ a ∈ acts, a = .openDir) →
  let w' := acts.foldl act (act w (.update vals)); used w'.priority own w'.analyser k = some v

/-- **C232 fails**: a change of settings overrides those saved with chains (mainwindow.py:885) only until another directory is opened, which makes a new plotter (1175) -/
theorem open_priority_fails : ¬ ChangedUsed := by
  intro h
  have := h ⟨[], [], [], true, true⟩ [(c!"k", c!"2")] [(c!"k", c!"1")] [.openDir] c!"k" c!"2"
    ⟨fun _ => rfl, by unfold Dict.WF; decide, by unfold Dict.WF; decide, by unfold Dict.WF; decide⟩ (by unfold Dict.WF; decide) rfl (by simp)
  revert this
  decide

/-- **C231**: without that they are -/
theorem changed_used (w : Win) (vals own : Settings) (k v : Str) (h : Inv w) (hw : Dict.WF vals) (hk : Dict.get? vals k = some v) :
    used (act w (.update vals)).priority own (act w (.update vals)).analyser k = some v := by
  have hs := act_synced w [] (.update vals) h (by intro h; cases h)
  have : Dict.get? (act w (.update vals)).current k = some v := by
    simp only [act]
    rw [Batch.get?_update hw, hk]; rfl
  have := hs k v this
  simp only [List.nil_append, List.foldl_cons, List.foldl_nil] at this
  unfold used
  rw [show (act w (.update vals)).priority = false from rfl, if_neg (by decide), this]; rfl

example : (fun w => used w.priority [(c!"n", c!"9")] w.analyser c!"n") (act ⟨[], [(c!"n", c!"4")], [(c!"n", c!"4")], false, true⟩ (.update [(c!"n", c!"5")])) = some c!"5" ∧
    used true [(c!"n", c!"9")] [(c!"n", c!"4")] c!"n" = some c!"9" := by decide

/-- script and screen use the same settings for samples that have their own -/
def SameUsed : Prop := ∀ (defaults own cur : Settings) (a : Arg) (w : Win), Inv w → Dict.WF cur → w.current = cur → scriptArg defaults false cur = .ok a → w.priority = false → Synced w →
  ∀ k v, Dict.get? cur k = some v → used true own (readArg defaults [] a) k = used w.priority own w.analyser k

/-- **C232 fails**: in the script settings saved with the chains come first (plots.py:445), on the screen after a change of settings those of the window (mainwindow.py:885) -/
theorem script_priority_fails : ¬ SameUsed := by
  intro h
  have := h [(c!"k", c!"1")] [(c!"k", c!"3")] [(c!"k", c!"2")] (.dict [(c!"k", c!"2")]) ⟨[], [(c!"k", c!"2")], [(c!"k", c!"2")], true, false⟩
    ⟨fun _ => rfl, by unfold Dict.WF; decide, by unfold Dict.WF; decide, by unfold Dict.WF; decide⟩ (by unfold Dict.WF; decide) rfl rfl rfl (fun k v h => h) c!"k" c!"2" rfl
  revert this
  decide

/-- settings that are strings are read from the script as they are -/
def StringsRead : Prop := ∀ v : Str, readString false '"' ((settingLiteral v).drop 1) = some (v, [])

/-- **C232 fails**: strings are put between quotes without escapes (mainwindow.py:1621-1623): in a label like `$\nu$` Python reads the end of a line -/
theorem escape_fails : ¬ StringsRead := by
  intro h
  have := h ['$', '\\', 'n', 'u', '$']
  revert this
  decide

/-- roots are read from the script as they are -/
def RootsRead : Prop := ∀ r : Str, readString false '\'' ((rootLiteral r).drop 1) = some (r, [])

/-- **C232 fails**: with three or more roots their names are put between quotes as they are (mainwindow.py:1629-1630): one with a quote ends too early -/
theorem root_quote_fails : ¬ RootsRead := by
  intro h
  have := h ['a', '\'', 'b']
  revert this
  decide

end Verif.GuiPlot
