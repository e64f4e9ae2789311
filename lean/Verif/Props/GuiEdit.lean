import Verif.Model.GuiEdit
import Verif.Model.GuiPlot

/-!
# C233, C234: changes of settings in an open script
-/

namespace Verif.GuiEdit
open Verif.Py

/-! ## Analysis settings -/

/-- lines that are one assignment: the first has the tag, only the last has a brace -/
def Block (b : List Str) : Prop := ∃ a z, b = a ++ [z] ∧ (∀ l ∈ a, '}' ∉ l) ∧ '}' ∈ z ∧ (∀ l, b.head? = some l → startsWith tag l = true)

theorem dropBlock_append : ∀ (a post : List Str) (z : Str), (∀ l ∈ a, '}' ∉ l) → '}' ∈ z → dropBlock (a ++ z :: post) = some post
  | [], post, z, _, hz => by rw [List.nil_append, dropBlock, if_pos hz]
  | l :: a, post, z, h, hz => by
    rw [List.cons_append, dropBlock, if_neg (h l (List.mem_cons_self ..))]
    exact dropBlock_append a post z (fun l hl => h l (List.mem_cons_of_mem _ hl)) hz

theorem replaceTag_block (nl b : List Str) (hb : Block b) (post : List Str) : ∀ (pre : List Str), (∀ l ∈ pre, startsWith tag l = false) →
    replaceTag nl (pre ++ (b ++ post)) = some (pre ++ (nl ++ post))
  | [], _ => by
    obtain ⟨a, z, e, h1, h2, h3⟩ := hb
    rw [List.nil_append, List.nil_append]
    have hd := dropBlock_append a post z h1 h2
    have hbp : b ++ post = a ++ z :: post := by rw [e, List.append_assoc]; rfl
    rw [hbp]
    cases hc : a ++ z :: post with
    | nil => simp at hc
    | cons l ls =>
      rw [hc] at hd
      have hl : startsWith tag l = true := by
        apply h3
        rw [e]
        cases a with
        | nil => rw [List.nil_append] at hc ⊢; injection hc with hc; rw [hc]; rfl
        | cons x a => rw [List.cons_append] at hc ⊢; injection hc with hc; rw [hc]; rfl
      rw [replaceTag, if_pos hl, hd]; rfl
  | p :: pre, h => by
    rw [List.cons_append, replaceTag, if_neg (by rw [h p (List.mem_cons_self ..)]; decide), replaceTag_block nl b hb post pre (fun l hl => h l (List.mem_cons_of_mem _ hl))]; rfl

theorem replaceTag_none (nl : List Str) : ∀ (s : List Str), (∀ l ∈ s, startsWith tag l = false) → replaceTag nl s = none
  | [], _ => rfl
  | p :: s, h => by
    rw [replaceTag, if_neg (by rw [h p (List.mem_cons_self ..)]; decide), replaceTag_none nl s (fun l hl => h l (List.mem_cons_of_mem _ hl))]; rfl

theorem lastG_pos : ∀ (s : List Str) (i last : Nat), last ≠ 0 → lastG i last s = last
  | [], _, _, _ => rfl
  | l :: s, i, last, h => by rw [lastG, if_neg (fun hc => h hc.1), lastG_pos s _ _ h]

theorem lastG_append (g : Str) (post : List Str) (hg : startsWith c!"g=" g = true) : ∀ (pre : List Str) (i : Nat), (∀ l ∈ pre, startsWith c!"g=" l = false) → i + pre.length ≠ 0 →
    lastG i 0 (pre ++ g :: post) = i + pre.length
  | [], i, _, hi => by rw [List.nil_append, lastG, if_pos ⟨rfl, hg⟩]; exact lastG_pos _ _ _ hi
  | p :: pre, i, h, hi => by
    rw [List.cons_append, lastG, if_neg (fun hc => by rw [h p (List.mem_cons_self ..)] at hc; cases hc.2), lastG_append g post hg pre (i + 1) (fun l hl => h l (List.mem_cons_of_mem _ hl)) (by omega)]
    rw [List.length_cons]; omega

theorem addArg_append : ∀ (pre post : List Str), (∀ l ∈ pre, lacks l = false) → addArg (pre ++ post) = pre ++ addArg post
  | [], _, _ => rfl
  | p :: pre, post, h => by
    rw [List.cons_append, addArg, if_neg (by rw [h p (List.mem_cons_self ..)]; decide), addArg_append pre post (fun l hl => h l (List.mem_cons_of_mem _ hl))]; rfl

/-- **C233**: an assignment that is there is replaced, and nothing else changed but the first plotter without the argument -/
theorem edit_replaces (nl pre b post : List Str) (hb : Block b) (hp : ∀ l ∈ pre, startsWith tag l = false) : editAnalysis nl (pre ++ (b ++ post)) = addArg (pre ++ (nl ++ post)) := by
  unfold editAnalysis
  rw [replaceTag_block nl b hb post pre hp]; rfl

/-- **C233**: without one it is put before the first plotter -/
theorem edit_inserts (nl pre post : List Str) (g : Str) (ht : ∀ l ∈ pre ++ g :: post, startsWith tag l = false) (hg : startsWith c!"g=" g = true) (hp : ∀ l ∈ pre, startsWith c!"g=" l = false)
    (hn : pre ≠ []) : editAnalysis nl (pre ++ g :: post) = addArg (pre ++ (nl ++ g :: post)) := by
  unfold editAnalysis
  rw [replaceTag_none nl _ ht, lastG_append g post hg pre 0 hp (by cases pre with | nil => exact absurd rfl hn | cons => simp)]
  unfold insertAt
  rw [Nat.zero_add, List.take_left' rfl, List.drop_left' rfl, List.append_assoc]; rfl

theorem startsWith_trans {p q s : Str} (h : startsWith (p ++ q) s = true) : startsWith p s = true := by
  obtain ⟨t, ht⟩ := startsWith_iff.mp h
  exact startsWith_iff.mpr ⟨q ++ t, by rw [ht, List.append_assoc]⟩

theorem lacks_g {l : Str} (h : startsWith c!"g=" l = false) : lacks l = false := by
  unfold lacks
  cases h2 : startsWith c!"g=plots." l with
  | false => rfl
  | true => rw [startsWith_trans (p := c!"g=") (q := c!"plots.") h2] at h; cases h

theorem contains_append_right {p s : Str} (a : Str) (h : contains p s = true) : contains p (a ++ s) = true := by
  induction a with
  | nil => exact h
  | cons c a ih => rw [List.cons_append, contains, ih]; simp

theorem withArg_lacks (l : Str) : lacks (withArg l) = false := by
  unfold lacks withArg
  rw [contains_append_right _ (by decide +kernel : contains c!"analysis_settings" c!", analysis_settings=analysis_settings)" = true)]
  simp

/-- **C233**: the last change counts: for a script with one plotter two changes are as the second alone -/
theorem edit_twice (n1 n2 pre post : List Str) (g : Str) (ht : ∀ l ∈ pre ++ g :: post, startsWith tag l = false) (hg : startsWith c!"g=" g = true) (hp : ∀ l ∈ pre, startsWith c!"g=" l = false)
    (hn : pre ≠ []) (hone : ∀ l ∈ post, startsWith c!"g=plots." l = false) (hb1 : Block n1) (h1 : ∀ l ∈ n1, startsWith c!"g=" l = false) (h2 : ∀ l ∈ n2, startsWith c!"g=" l = false) :
    editAnalysis n2 (editAnalysis n1 (pre ++ g :: post)) = editAnalysis n2 (pre ++ g :: post) := by
  have hl : ∀ l ∈ post, lacks l = false := fun l hl => by unfold lacks; rw [hone l hl]; rfl
  have hpost : addArg post = post := by have := addArg_append post [] hl; rwa [List.append_nil, show addArg [] = [] from rfl, List.append_nil] at this
  have pick : ∀ n : List Str, (∀ l ∈ n, startsWith c!"g=" l = false) → addArg (pre ++ (n ++ g :: post)) = pre ++ (n ++ addArg (g :: post)) := fun n h => by
    rw [addArg_append pre _ (fun l hl => lacks_g (hp l hl)), addArg_append n _ (fun l hl => lacks_g (h l hl))]
  rw [edit_inserts n1 pre post g ht hg hp hn, edit_inserts n2 pre post g ht hg hp hn, pick n1 h1, pick n2 h2,
    edit_replaces n2 pre n1 _ hb1 (fun l hl => ht l (List.mem_append_left _ hl)), addArg_append pre _ (fun l hl => lacks_g (hp l hl)), addArg_append n2 _ (fun l hl => lacks_g (h2 l hl))]
  congr 2
  rw [addArg]
  split
  · rw [addArg, if_neg (by rw [withArg_lacks]; decide), hpost]
  · rename_i h
    rw [hpost, addArg, if_neg h, hpost]

/-- **C233**: the plotter gets the argument; its line is otherwise as it was up to the closing bracket -/
theorem edit_plotter (nl pre post : List Str) (g a : Str) (ht : ∀ l ∈ pre ++ g :: post, startsWith tag l = false) (hg : g = c!"g=plots." ++ a ++ [')']) (hc : contains c!"analysis_settings" g = false)
    (hp : ∀ l ∈ pre, startsWith c!"g=" l = false) (hn : pre ≠ []) (h : ∀ l ∈ nl, startsWith c!"g=" l = false) :
    editAnalysis nl (pre ++ g :: post) = pre ++ (nl ++ (c!"g=plots." ++ a ++ c!", analysis_settings=analysis_settings)") :: post) := by
  have hs : startsWith c!"g=plots." g = true := startsWith_iff.mpr ⟨a ++ [')'], by rw [hg, List.append_assoc]⟩
  have hs2 : startsWith c!"g=" g = true := startsWith_trans (p := c!"g=") (q := c!"plots.") hs
  rw [edit_inserts nl pre post g ht hs2 hp hn, addArg_append pre _ (fun l hl => lacks_g (hp l hl)), addArg_append nl _ (fun l hl => lacks_g (h l hl)), addArg,
    if_pos (by unfold lacks; rw [hs, hc]; rfl)]
  congr 3
  unfold withArg
  have : strip g = g := by
    unfold strip lstrip rstrip
    have e1 : g.dropWhile isWs = g := by
      rw [hg]; rfl
    rw [e1]
    have e2 : g.reverse.dropWhile isWs = g.reverse := by
      rw [hg, List.reverse_append]; rfl
    rw [e2, List.reverse_reverse]
  rw [this, hg, List.dropLast_concat]

/-! ## Plot settings -/

/-- is the line an assignment of the setting -/
def Sets (key l : Str) : Prop := startsWith (setPrefix key) l = true

instance (key l : Str) : Decidable (Sets key l) := inferInstanceAs (Decidable (_ = true))

/-- the value that counts when the script is run: that of the last assignment -/
def assigned (key : Str) (s : List Str) : Option Str := (s.filter (fun l => decide (Sets key l))).getLast?.map (fun l => l.drop (setPrefix key).length)

theorem sets_line (key v : Str) : Sets key (setLine key v) := startsWith_iff.mpr ⟨' ' :: v, rfl⟩

theorem space_eq {a b x y : Str} (ha : ' ' ∉ a) (hb : ' ' ∉ b) (h : a ++ ' ' :: x = b ++ ' ' :: y) : a = b := by
  induction a generalizing b with
  | nil =>
    cases b with
    | nil => rfl
    | cons c b => rw [List.nil_append, List.cons_append] at h; injection h with h1 _; exact absurd (h1 ▸ List.mem_cons_self ..) hb
  | cons c a ih =>
    cases b with
    | nil => rw [List.nil_append, List.cons_append] at h; injection h with h1 _; exact absurd (h1 ▸ List.mem_cons_self ..) ha
    | cons d b =>
      rw [List.cons_append, List.cons_append] at h
      injection h with h1 h2
      rw [h1, ih (fun hc => ha (List.mem_cons_of_mem _ hc)) (fun hc => hb (List.mem_cons_of_mem _ hc)) h2]

theorem sets_other {k k' l : Str} (hk : ' ' ∉ k) (hk' : ' ' ∉ k') (h : Sets k l) (h' : Sets k' l) : k = k' := by
  obtain ⟨t, ht⟩ := startsWith_iff.mp h
  obtain ⟨t', ht'⟩ := startsWith_iff.mp h'
  rw [ht] at ht'
  unfold setPrefix at ht'
  rw [List.append_assoc, List.append_assoc, List.append_assoc, List.append_assoc] at ht'
  exact space_eq hk hk' (List.append_cancel_left ht')

theorem replaceSet_some (key v : Str) : ∀ (s s' : List Str), replaceSet key v s = some s' → ∃ a l b, s = a ++ l :: b ∧ s' = a ++ setLine key v :: b ∧ Sets key l ∧ ∀ x ∈ a, ¬ Sets key x
  | [], _, h => by cases h
  | l :: s, s', h => by
    rw [replaceSet] at h
    split at h
    · rename_i hl
      injection h with h
      exact ⟨[], l, s, rfl, h.symm, hl, fun x hx => (by cases hx)⟩
    · rename_i hl
      cases hr : replaceSet key v s with
      | none => rw [hr] at h; cases h
      | some r =>
        rw [hr] at h
        injection h with h
        obtain ⟨a, m, b, e1, e2, h3, h4⟩ := replaceSet_some key v s r hr
        refine ⟨l :: a, m, b, by rw [e1]; rfl, by rw [← h, e2]; rfl, h3, ?_⟩
        intro x hx
        rcases List.mem_cons.mp hx with rfl | hx
        · exact hl
        · exact h4 x hx

theorem replaceSet_none (key v : Str) : ∀ (s : List Str), replaceSet key v s = none → ∀ l ∈ s, ¬ Sets key l
  | [], _, l, hl => by cases hl
  | x :: s, h, l, hl => by
    rw [replaceSet] at h
    split at h
    · cases h
    · rename_i hx
      cases hr : replaceSet key v s with
      | some r => rw [hr] at h; cases h
      | none =>
        rcases List.mem_cons.mp hl with rfl | hl
        · exact hx
        · exact replaceSet_none key v s hr l hl

/-- a script as the interface writes it: something, then the plotter, no settings before it -/
def Script (s : List Str) : Prop := ∃ pre g post, s = pre ++ g :: post ∧ pre ≠ [] ∧ (∀ l ∈ pre, startsWith c!"g=" l = false ∧ startsWith c!"g.settings." l = false) ∧ startsWith c!"g=" g = true

theorem g_not_set {g : Str} (h : startsWith c!"g=" g = true) (key : Str) : ¬ Sets key g := by
  intro h2
  obtain ⟨t, ht⟩ := startsWith_iff.mp h
  obtain ⟨t', ht'⟩ := startsWith_iff.mp h2
  rw [ht] at ht'
  unfold setPrefix at ht'
  injection ht' with _ h3
  injection h3 with h4 _
  revert h4
  decide

theorem set_settings {key l : Str} (h : Sets key l) : startsWith c!"g.settings." l = true := by
  unfold Sets setPrefix at h
  rw [List.append_assoc] at h
  exact startsWith_trans h

theorem lastSet_some : ∀ (s : List Str) (i n : Nat), ∃ m, lastSet i (some n) s = some m ∧ (m = n ∨ i ≤ m ∧ m < i + s.length)
  | [], i, n => ⟨n, rfl, Or.inl rfl⟩
  | l :: s, i, n => by
    rw [lastSet]
    split
    · obtain ⟨m, h1, h2⟩ := lastSet_some s (i + 1) i
      exact ⟨m, h1, by rw [List.length_cons]; omega⟩
    · obtain ⟨m, h1, h2⟩ := lastSet_some s (i + 1) n
      exact ⟨m, h1, by rw [List.length_cons]; omega⟩

theorem lastSet_pre (g : Str) (post : List Str) (hg : startsWith c!"g=" g = true) : ∀ (pre : List Str) (i : Nat), (∀ l ∈ pre, startsWith c!"g=" l = false ∧ startsWith c!"g.settings." l = false) →
    lastSet i none (pre ++ g :: post) = lastSet (i + pre.length + 1) (some (i + pre.length)) post
  | [], i, _ => by rw [List.nil_append, lastSet, if_pos (Or.inr ⟨rfl, hg⟩)]; rfl
  | p :: pre, i, h => by
    obtain ⟨h1, h2⟩ := h p (List.mem_cons_self ..)
    rw [List.cons_append, lastSet, if_neg (by rintro (hc | hc)
                                              · rw [h2] at hc; cases hc
                                              · rw [h1] at hc; cases hc.2), lastSet_pre g post hg pre (i + 1) (fun l hl => h l (List.mem_cons_of_mem _ hl))]
    rw [List.length_cons, show i + 1 + pre.length = i + (pre.length + 1) by omega]

/-- a changed setting is one line more or in the place of the first; all the others are kept and the plotter stays before it -/
theorem setPlot_form (key v : Str) (pre post : List Str) (g : Str) (hn : pre ≠ []) (hp : ∀ l ∈ pre, startsWith c!"g=" l = false ∧ startsWith c!"g.settings." l = false)
    (hg : startsWith c!"g=" g = true) :
    ∃ a o b, post = a ++ o ++ b ∧ setPlot key v (pre ++ g :: post) = pre ++ g :: (a ++ setLine key v :: b) ∧ (∀ l ∈ a, ¬ Sets key l) ∧ (o = [] ∧ (∀ l ∈ b, ¬ Sets key l) ∨ ∃ l, o = [l] ∧ Sets key l) := by
  unfold setPlot
  cases hr : replaceSet key v (pre ++ g :: post) with
  | some s' =>
    obtain ⟨a, l, b, e1, e2, h3, h4⟩ := replaceSet_some key v _ _ hr
    dsimp only
    have hpre : ∀ (pre a : List Str), (∀ l ∈ pre, startsWith c!"g=" l = false ∧ startsWith c!"g.settings." l = false) → pre ++ g :: post = a ++ l :: b → (∀ x ∈ a, ¬ Sets key x) →
        ∃ a', a = pre ++ g :: a' ∧ post = a' ++ l :: b := by
      intro pre
      induction pre with
      | nil =>
        intro a _ e _
        cases a with
        | nil => rw [List.nil_append, List.nil_append] at e; injection e with e _; rw [← e] at h3; exact absurd h3 (g_not_set hg key)
        | cons x a => rw [List.nil_append, List.cons_append] at e; injection e with e1 e2; exact ⟨a, by rw [e1]; rfl, e2⟩
      | cons p pre ih =>
        intro a h e h4
        cases a with
        | nil =>
          rw [List.nil_append, List.cons_append] at e; injection e with e _
          rw [← e] at h3
          have := set_settings h3
          rw [(h p (List.mem_cons_self ..)).2] at this; cases this
        | cons x a =>
          rw [List.cons_append, List.cons_append] at e; injection e with e1 e2
          obtain ⟨a', h5, h6⟩ := ih a (fun l hl => h l (List.mem_cons_of_mem _ hl)) e2 (fun x hx => h4 x (List.mem_cons_of_mem _ hx))
          exact ⟨a', by rw [e1, h5]; rfl, h6⟩
    obtain ⟨a', h5, h6⟩ := hpre pre a hp e1 h4
    refine ⟨a', [l], b, by rw [h6, List.append_assoc]; rfl, by rw [e2, h5, List.append_assoc]; rfl, ?_, Or.inr ⟨l, rfl, h3⟩⟩
    intro x hx
    exact h4 x (by rw [h5]; exact List.mem_append_right _ (List.mem_cons_of_mem _ hx))
  | none =>
    have hno := replaceSet_none key v _ hr
    dsimp only
    rw [lastSet_pre g post hg pre 0 hp, Nat.zero_add]
    obtain ⟨m, h1, h2⟩ := lastSet_some post (pre.length + 1) pre.length
    rw [h1]
    have hl : pre.length ≠ 0 := by cases pre with
      | nil => exact absurd rfl hn
      | cons => simp
    obtain ⟨n, rfl⟩ : ∃ n, m = n + 1 := ⟨m - 1, by omega⟩
    dsimp only
    refine ⟨post.take (n + 1 - pre.length), [], post.drop (n + 1 - pre.length), by rw [List.append_nil, List.take_append_drop], ?_, ?_, Or.inl ⟨rfl, ?_⟩⟩
    · unfold insertAt
      have e : n + 2 = pre.length + (n + 1 - pre.length + 1) := by omega
      rw [e, List.take_length_add_append, List.drop_length_add_append, List.take_succ_cons, List.drop_succ_cons]
      simp
    · intro l hl'; exact hno l (List.mem_append_right _ (List.mem_cons_of_mem _ (List.mem_of_mem_take hl')))
    · intro l hl'; exact hno l (List.mem_append_right _ (List.mem_cons_of_mem _ (List.mem_of_mem_drop hl')))

/-- **C233**: the script is still one: the plotter is made before its settings -/
theorem setPlot_script (key v : Str) (s : List Str) (h : Script s) : Script (setPlot key v s) := by
  obtain ⟨pre, g, post, rfl, h1, h2, h3⟩ := h
  obtain ⟨a, o, b, _, e, _⟩ := setPlot_form key v pre post g h1 h2 h3
  exact ⟨pre, g, _, e, h1, h2, h3⟩

/-- **C233**: all other lines are kept in their order -/
theorem setPlot_lines (key v : Str) (s : List Str) (h : Script s) (p : Str → Bool) (hp : ∀ l, Sets key l → p l = false) : (setPlot key v s).filter p = s.filter p := by
  obtain ⟨pre, g, post, rfl, h1, h2, h3⟩ := h
  obtain ⟨a, o, b, e0, e, h4, h5⟩ := setPlot_form key v pre post g h1 h2 h3
  rw [e, e0, List.filter_append, List.filter_append, List.filter_cons, List.filter_cons]
  have ho : o.filter p = [] := by
    rcases h5 with ⟨rfl, _⟩ | ⟨l, rfl, hl⟩
    · rfl
    · rw [List.filter_cons, if_neg (by rw [hp l hl]; decide)]; rfl
  have : (a ++ setLine key v :: b).filter p = (a ++ o ++ b).filter p := by
    rw [List.filter_append, List.filter_append, List.filter_append, List.filter_cons, if_neg (by rw [hp _ (sets_line key v)]; decide), ho, List.append_nil]
  rw [this]

/-- no setting is assigned twice -/
def Once (s : List Str) : Prop := ∀ key, ' ' ∉ key → (s.filter (fun l => decide (Sets key l))).length ≤ 1

/-- **C233**: the value is the one of the dialog -/
theorem setPlot_assigned (key v : Str) (s : List Str) (h : Script s) (ho : Once s) (hk : ' ' ∉ key) : assigned key (setPlot key v s) = some (' ' :: v) ∧ Once (setPlot key v s) := by
  have hs := h
  obtain ⟨pre, g, post, rfl, h1, h2, h3⟩ := h
  obtain ⟨a, o, b, e0, e, h4, h5⟩ := setPlot_form key v pre post g h1 h2 h3
  have fpre : pre.filter (fun l => decide (Sets key l)) = [] := List.filter_eq_nil_iff.mpr (fun l hl hc => by
    have := set_settings (of_decide_eq_true hc)
    rw [(h2 l hl).2] at this; cases this)
  have fa : a.filter (fun l => decide (Sets key l)) = [] := List.filter_eq_nil_iff.mpr (fun l hl hc => h4 l hl (of_decide_eq_true hc))
  have fb : b.filter (fun l => decide (Sets key l)) = [] := by
    rcases h5 with ⟨_, hb⟩ | ⟨l, rfl, hl⟩
    · exact List.filter_eq_nil_iff.mpr (fun l hl hc => hb l hl (of_decide_eq_true hc))
    · have := ho key hk
      rw [e0, List.filter_append, fpre, List.nil_append, List.filter_cons, if_neg (by rw [decide_eq_true_iff]; exact g_not_set h3 key), List.append_assoc, List.filter_append, fa, List.nil_append,
        List.filter_append, List.filter_cons, if_pos (decide_eq_true hl), List.filter_nil, List.length_append, List.length_singleton] at this
      exact List.length_eq_zero_iff.mp (by omega)
  have key1 : (setPlot key v (pre ++ g :: post)).filter (fun l => decide (Sets key l)) = [setLine key v] := by
    rw [e, List.filter_append, fpre, List.nil_append, List.filter_cons, if_neg (by rw [decide_eq_true_iff]; exact g_not_set h3 key), List.filter_append, fa, List.nil_append, List.filter_cons,
      if_pos (decide_eq_true (sets_line key v)), fb]
  refine ⟨?_, ?_⟩
  · unfold assigned
    rw [key1]
    unfold setLine
    simp
  · intro k hk'
    by_cases ek : k = key
    · subst ek; rw [key1]; simp
    · rw [setPlot_lines key v _ hs (fun l => decide (Sets k l)) (fun l hl => decide_eq_false (fun hc => ek (sets_other hk' hk hc hl)))]
      exact ho k hk'

/-- **C233**: other settings keep their values -/
theorem setPlot_other (key k v : Str) (s : List Str) (h : Script s) (hk : ' ' ∉ key) (hk' : ' ' ∉ k) (hne : k ≠ key) : assigned k (setPlot key v s) = assigned k s := by
  unfold assigned
  rw [setPlot_lines key v s h (fun l => decide (Sets k l)) (fun l hl => decide_eq_false (fun hc => hne (sets_other hk' hk hc hl)))]

theorem delPlot_form (key : Str) : ∀ (s : List Str), (delPlot key s = s ∧ ∀ l ∈ s, ¬ Sets key l) ∨ ∃ a l b, s = a ++ l :: b ∧ delPlot key s = a ++ b ∧ Sets key l ∧ ∀ x ∈ a, ¬ Sets key x
  | [] => Or.inl ⟨rfl, fun l hl => (by cases hl)⟩
  | x :: s => by
    rw [delPlot]
    by_cases hx : Sets key x
    · rw [if_pos (show startsWith (setPrefix key) x = true from hx)]
      exact Or.inr ⟨[], x, s, rfl, rfl, hx, fun x hx => (by cases hx)⟩
    · rw [if_neg (show ¬ startsWith (setPrefix key) x = true from hx)]
      rcases delPlot_form key s with ⟨h1, h2⟩ | ⟨a, l, b, e1, e2, h3, h4⟩
      · refine Or.inl ⟨by rw [h1], fun l hl => ?_⟩
        rcases List.mem_cons.mp hl with rfl | hl
        · exact hx
        · exact h2 l hl
      · refine Or.inr ⟨x :: a, l, b, by rw [e1]; rfl, by rw [e2]; rfl, h3, fun y hy => ?_⟩
        rcases List.mem_cons.mp hy with rfl | hy
        · exact hx
        · exact h4 y hy

/-- **C233**: a setting that is set back is in the script no more, and all else is as it was -/
theorem delPlot_spec (key : Str) (s : List Str) (ho : Once s) (hk : ' ' ∉ key) : assigned key (delPlot key s) = none ∧ Once (delPlot key s) ∧ delPlot key s = s.filter (fun l => !decide (Sets key l)) := by
  have main : delPlot key s = s.filter (fun l => !decide (Sets key l)) := by
    rcases delPlot_form key s with ⟨h1, h2⟩ | ⟨a, l, b, e1, e2, h3, h4⟩
    · rw [h1]; exact (List.filter_eq_self.mpr (fun l hl => by rw [decide_eq_false (h2 l hl)]; rfl)).symm
    · rw [e2, e1, List.filter_append, List.filter_cons, if_neg (by rw [decide_eq_true h3]; decide)]
      have fa : a.filter (fun l => decide (Sets key l)) = [] := List.filter_eq_nil_iff.mpr (fun l hl hc => h4 l hl (of_decide_eq_true hc))
      have hb := ho key hk
      rw [e1, List.filter_append, fa, List.nil_append, List.filter_cons, if_pos (decide_eq_true h3), List.length_cons] at hb
      have fb := List.length_eq_zero_iff.mp (by omega : (b.filter (fun l => decide (Sets key l))).length = 0)
      rw [List.filter_eq_self.mpr (fun l hl => by rw [decide_eq_false (h4 l hl)]; rfl), List.filter_eq_self.mpr (fun l hl => ?_)]
      have := List.filter_eq_nil_iff.mp fb l hl
      cases hd : decide (Sets key l) with
      | true => exact absurd hd this
      | false => rfl
  refine ⟨?_, ?_, main⟩
  · unfold assigned
    rw [main, List.filter_filter]
    rw [show s.filter (fun a => decide (Sets key a) && !decide (Sets key a)) = [] from List.filter_eq_nil_iff.mpr (fun l _ hc => by cases hd : decide (Sets key l) <;> simp_all)]
    rfl
  · intro k hk'
    rw [main, List.filter_filter]
    refine Nat.le_trans (Nat.le_trans (Nat.le_of_eq ?_) (List.length_filter_le (fun l => !decide (Sets key l)) _)) (ho k hk')
    rw [List.filter_filter]
    congr 2
    funext l
    exact Bool.and_comm ..

example : delPlot c!"lw" [c!"import x", c!"g.settings.lw = 3", c!"g.settings.lwx = 4"] = [c!"import x", c!"g.settings.lwx = 4"] := by decide

/-- **C233**: after a change in the dialog for plot settings the script has the changed values, has none for those that were set back, and keeps the others -/
theorem editPlot_spec (custom : List (Str × Str)) (deleted : List Str) (s : List Str) (h : Script s) (ho : Once s) (hc : ∀ e ∈ custom, ' ' ∉ e.1) (hd : ∀ k ∈ deleted, ' ' ∉ k)
    (hw : Dict.WF custom) (k : Str) (hk : ' ' ∉ k) :
    assigned k (editPlot custom deleted s) = if k ∈ deleted then none else match Dict.get? custom k with | some v => some (' ' :: v) | none => assigned k s := by
  unfold editPlot
  have A : ∀ (custom : List (Str × Str)) (s : List Str), Script s → Once s → (∀ e ∈ custom, ' ' ∉ e.1) → Dict.WF custom →
      Once (custom.foldl (fun s e => setPlot e.1 e.2 s) s) ∧
      assigned k (custom.foldl (fun s e => setPlot e.1 e.2 s) s) = (match Dict.get? custom k with | some v => some (' ' :: v) | none => assigned k s) := by
    intro custom
    induction custom with
    | nil => intro s h ho _ _; exact ⟨ho, rfl⟩
    | cons e custom ih =>
      intro s h ho hc hw
      obtain ⟨k1, v1⟩ := e
      have hk1 := hc _ (List.mem_cons_self ..)
      have hs := setPlot_assigned k1 v1 s h ho hk1
      have hw' : k1 ∉ Dict.keys custom ∧ Dict.WF custom := List.nodup_cons.mp hw
      obtain ⟨i1, i2⟩ := ih (setPlot k1 v1 s) (setPlot_script k1 v1 s h) hs.2 (fun e he => hc e (List.mem_cons_of_mem _ he)) hw'.2
      rw [List.foldl_cons]
      refine ⟨i1, ?_⟩
      rw [i2, Dict.get?_cons]
      by_cases ek : k1 = k
      · subst ek
        rw [if_pos rfl, Dict.get?_eq_none.mpr hw'.1]
        exact hs.1
      · rw [if_neg ek, setPlot_other k1 k v1 s h hk1 hk (Ne.symm ek)]
  obtain ⟨hA1, hA2⟩ := A custom s h ho hc hw
  have B : ∀ (deleted : List Str) (t : List Str), Once t → (∀ k ∈ deleted, ' ' ∉ k) →
      assigned k (deleted.foldl (fun s k => delPlot k s) t) = if k ∈ deleted then none else assigned k t := by
    intro deleted
    induction deleted with
    | nil => intro t _ _; rfl
    | cons d deleted ih =>
      intro t ht hd
      have hd1 := hd d (List.mem_cons_self ..)
      have hs := delPlot_spec d t ht hd1
      rw [List.foldl_cons, ih _ hs.2.1 (fun k hk => hd k (List.mem_cons_of_mem _ hk))]
      by_cases ek : k = d
      · subst ek
        rw [hs.1]; simp
      · have : assigned k (delPlot d t) = assigned k t := by
          unfold assigned
          rw [hs.2.2, List.filter_filter]
          congr 2
          apply List.filter_congr
          intro l _
          by_cases hl : Sets k l
          · have : ¬ Sets d l := fun hc => ek (sets_other hk hd1 hl hc)
            rw [decide_eq_true hl, decide_eq_false this]; rfl
          · rw [decide_eq_false hl]; rfl
        rw [this]
        simp [ek]
  rw [B deleted _ hA1 hd, hA2]

/-! ## Values -/

/-- **C233**: if all entries can be used, those that are neither empty nor the default are the custom settings, the others are set back -/
theorem plotVals_spec (attr : Str → Option Cur) (ev : Str → Option Val) : ∀ (vals : List (Str × Str)), (plotVals attr ev vals).2.2 = true →
    (∀ k x, (k, x) ∈ (plotVals attr ev vals).1 ↔ ∃ v cur, (k, v) ∈ vals ∧ attr k = some cur ∧ cur.shown ≠ v ∧ v ≠ [] ∧ valueOf ev cur v = some x) ∧
    (∀ k, k ∈ (plotVals attr ev vals).2.1 ↔ ∃ v cur, (k, v) ∈ vals ∧ attr k = some cur ∧ (cur.shown = v ∨ v = []))
  | [], _ => ⟨fun k x => by simp [plotVals], fun k => by simp [plotVals]⟩
  | (k0, v0) :: rest, h => by
    rw [plotVals] at h ⊢
    cases ha : attr k0 with
    | none => rw [ha] at h; cases h
    | some cur0 =>
      rw [ha] at h
      dsimp only at h ⊢
      by_cases hc : cur0.shown ≠ v0 ∧ v0 ≠ []
      · rw [if_pos hc] at h ⊢
        cases hv : valueOf ev cur0 v0 with
        | none => rw [hv] at h; cases h
        | some x0 =>
          rw [hv] at h
          dsimp only at h ⊢
          obtain ⟨i1, i2⟩ := plotVals_spec attr ev rest h
          refine ⟨fun k x => ?_, fun k => ?_⟩
          · rw [List.mem_cons, i1]
            constructor
            · rintro (h | ⟨v, cur, h1, h2⟩)
              · injection h with h1 h2
                subst h1; subst h2
                exact ⟨v0, cur0, List.mem_cons_self .., ha, hc.1, hc.2, hv⟩
              · exact ⟨v, cur, List.mem_cons_of_mem _ h1, h2⟩
            · rintro ⟨v, cur, h1, h2, h3, h4, h5⟩
              rcases List.mem_cons.mp h1 with h1 | h1
              · injection h1 with e1 e2
                subst e1; subst e2
                rw [ha] at h2; injection h2 with h2; subst h2
                rw [hv] at h5; injection h5 with h5; subst h5
                exact Or.inl rfl
              · exact Or.inr ⟨v, cur, h1, h2, h3, h4, h5⟩
          · rw [i2]
            constructor
            · rintro ⟨v, cur, h1, h2⟩; exact ⟨v, cur, List.mem_cons_of_mem _ h1, h2⟩
            · rintro ⟨v, cur, h1, h2, h3⟩
              rcases List.mem_cons.mp h1 with h1 | h1
              · injection h1 with e1 e2
                subst e1; subst e2
                rw [ha] at h2; injection h2 with h2; subst h2
                rcases h3 with h3 | h3
                · exact absurd h3 hc.1
                · exact absurd h3 hc.2
              · exact ⟨v, cur, h1, h2, h3⟩
      · rw [if_neg hc] at h ⊢
        dsimp only at h ⊢
        have hc' : cur0.shown = v0 ∨ v0 = [] := by
          by_cases h1 : cur0.shown = v0
          · exact Or.inl h1
          · by_cases h2 : v0 = []
            · exact Or.inr h2
            · exact absurd ⟨h1, h2⟩ hc
        obtain ⟨i1, i2⟩ := plotVals_spec attr ev rest h
        refine ⟨fun k x => ?_, fun k => ?_⟩
        · rw [i1]
          constructor
          · rintro ⟨v, cur, h1, h2⟩; exact ⟨v, cur, List.mem_cons_of_mem _ h1, h2⟩
          · rintro ⟨v, cur, h1, h2, h3, h4, h5⟩
            rcases List.mem_cons.mp h1 with h1 | h1
            · injection h1 with e1 e2
              subst e1; subst e2
              rw [ha] at h2; injection h2 with h2; subst h2
              exact absurd ⟨h3, h4⟩ hc
            · exact ⟨v, cur, h1, h2, h3, h4, h5⟩
        · rw [List.mem_cons, i2]
          constructor
          · rintro (rfl | ⟨v, cur, h1, h2⟩)
            · exact ⟨v0, cur0, List.mem_cons_self .., ha, hc'⟩
            · exact ⟨v, cur, List.mem_cons_of_mem _ h1, h2⟩
          · rintro ⟨v, cur, h1, h2, h3⟩
            rcases List.mem_cons.mp h1 with h1 | h1
            · injection h1 with e1 e2
              exact Or.inl e1
            · exact Or.inr ⟨v, cur, h1, h2, h3⟩

/-- **C233**: a string without a comma and a space is kept in the text of the settings -/
theorem newText_spec (r : Str) (h : contains c!", " (tag ++ ' ' :: r) = false) : newText r = tag ++ ' ' :: r := replaceStr_none h

example : contains c!", " (newText c!"{'a': 1, 'b': 2}") = false := by decide

/-- **C233**: a script without an export is run as it is -/
theorem execText_spec (t : Str) (h : contains c!"g.export()" t = false) : execText t = t := by
  unfold execText
  rw [if_neg (by rw [h]; decide)]

/-! ## Examples -/

def exScript : List Str := [c!"from getdist import plots", c!"g=plots.get_single_plotter(chain_dir=r'c')", c!"g.settings.lw = 2", c!"g.plot_1d('a','x')"]

example : Script exScript := ⟨[c!"from getdist import plots"], _, _, rfl, by simp, by decide +kernel, by decide +kernel⟩

example : editPlot [(c!"n", c!"3")] [c!"lw"] exScript = [c!"from getdist import plots", c!"g=plots.get_single_plotter(chain_dir=r'c')", c!"g.settings.n = 3", c!"g.plot_1d('a','x')"] := by decide +kernel

example : editAnalysis [c!"analysis_settings = {'k': '1'}"] exScript = [c!"from getdist import plots", c!"analysis_settings = {'k': '1'}",
    c!"g=plots.get_single_plotter(chain_dir=r'c', analysis_settings=analysis_settings)", c!"g.settings.lw = 2", c!"g.plot_1d('a','x')"] := by decide +kernel

example : plotVals (fun _ => some (.other c!"1")) (fun v => some (.code v)) [(c!"a", c!"2"), (c!"b", c!"1")] = ([(c!"a", .code c!"2")], [c!"b"], true) := by decide

/-! ## What fails -/

/-- after a change all plotters are made with the settings -/
def AllPlotters : Prop := ∀ (nl s : List Str), ∀ l ∈ editAnalysis nl s, startsWith c!"g=plots." l = true → contains c!"analysis_settings=analysis_settings" l = true

/-- **C234 fails**: the script for an ini file has `analysis_settings=r'…'` in the line of the plotter (mainwindow.py:1615): a change puts the dictionary before it (906-907) but leaves the line
(909), so that the change is without effect -/
theorem ini_line_fails : ¬ AllPlotters := by
  intro h
  have := h [c!"analysis_settings = {'k': '1'}"] [c!"", c!"g=plots.get_single_plotter(chain_dir=r'c', analysis_settings=r'f.ini')"]
  revert this
  decide +kernel

/-- **C234 fails**: of two plotters in the script only one gets the argument (mainwindow.py:908-911) -/
theorem two_plotters_fails : ¬ ∀ (nl s : List Str), (∀ l ∈ s, contains c!"analysis_settings" l = false) →
    ∀ l ∈ editAnalysis nl s, startsWith c!"g=plots." l = true → contains c!"analysis_settings=analysis_settings" l = true := by
  intro h
  have := h [c!"analysis_settings = {'k': '1'}"] [c!"", c!"g=plots.a(1)", c!"g=plots.b(2)"]
  revert this
  decide +kernel

/-- lines that are not of the assignment are kept -/
def KeepsLines : Prop := ∀ (nl s : List Str), ∀ l ∈ s, startsWith tag l = false → lacks l = false → '}' ∉ l → l ≠ [] → startsWith [' '] l = false → l ∈ editAnalysis nl s

/-- **C234 fails**: if the assignment has no brace, as in `analysis_settings = dict(...)`, everything up to the next line with one is deleted (mainwindow.py:897-900), here the plotter and its settings -/
theorem brace_fails : ¬ KeepsLines := by
  intro h
  have := h [c!"analysis_settings = {'k': '1'}"] [c!"analysis_settings = dict(k=2)", c!"g=x", c!"d={}"] c!"g=x" (by decide) (by decide) (by decide) (by decide) (by decide) (by decide)
  revert this
  decide +kernel

/-- the last assignment in the script is the new one -/
def NewLast : Prop := ∀ (nl : Str) (s : List Str), startsWith tag nl = true → ((editAnalysis [nl] s).filter (startsWith tag)).getLast? = some nl

/-- **C234 fails**: without any brace the old assignment stays, after the new one (mainwindow.py:896-903) -/
theorem no_brace_fails : ¬ NewLast := by
  intro h
  have := h c!"analysis_settings = {'k': '1'}" [c!"analysis_settings = dict(k=2)"] (by decide)
  revert this
  decide +kernel

/-- settings can be read in the text -/
def TextRead : Prop := ∀ v : Str, (∀ c ∈ v, c ≠ '\'' ∧ c ≠ '\\' ∧ c ≠ '\n') → GuiPlot.readString false '\'' ((newText ('\'' :: v ++ ['\''])).drop (tag.length + 2)) = some (v, [])

/-- **C234 fails**: every comma with a space becomes the end of a line (mainwindow.py:893, 1581), also within strings: with such a value the script is not Python -/
theorem comma_fails : ¬ TextRead := by
  intro h
  have := h c!"0.68, 0.95" (by decide)
  revert this
  decide +kernel

/-- a changed plot setting has its value in the script, whatever the script -/
def PlotSet : Prop := ∀ (key v : Str) (s : List Str), ' ' ∉ key → (∃ l ∈ s, startsWith c!"g=" l = true) → assigned key (setPlot key v s) = some (' ' :: v)

/-- **C234 fails**: if the plotter is made in the first line its index zero is taken for none (mainwindow.py:998), and the setting is not written -/
theorem first_line_fails : ¬ PlotSet := by
  intro h
  have := h c!"n" c!"3" [c!"g=p()"] (by decide) ⟨_, List.mem_singleton_self _, by decide⟩
  revert this
  decide +kernel

/-- **C234 fails**: if a setting is assigned twice only the first is changed (mainwindow.py:991-995), and the second counts -/
theorem duplicate_fails : ¬ ∀ (key v : Str) (s : List Str), ' ' ∉ key → Script s → assigned key (setPlot key v s) = some (' ' :: v) := by
  intro h
  have := h c!"n" c!"3" [c!"", c!"g=p()", c!"g.settings.n = 1", c!"g.settings.n = 2"] (by decide) ⟨[c!""], c!"g=p()", _, rfl, by simp, by decide, by decide⟩
  revert this
  decide +kernel

/-- settings are made before plots -/
def BeforePlot : Prop := ∀ (key v : Str) (s : List Str), Script s → ∀ a b, setPlot key v s = a ++ setLine key v :: b → c!"g.plots_1d(roots)" ∉ a

/-- **C234 fails**: a new setting is put after the last line with a setting (mainwindow.py:996-999), even if that comes after the plot -/
theorem after_plot_fails : ¬ BeforePlot := by
  intro h
  exact h c!"n" c!"3" [c!"", c!"g=p()", c!"g.plots_1d(roots)", c!"g.settings.x = 2"] ⟨[c!""], c!"g=p()", _, rfl, by simp, by decide, by decide⟩
    [c!"", c!"g=p()", c!"g.plots_1d(roots)", c!"g.settings.x = 2"] [] (by decide +kernel) (by decide)

/-- a setting is changed if its entry can be used -/
def EachSet : Prop := ∀ (attr : Str → Option Cur) (ev : Str → Option Val) (vals : List (Str × Str)) (k v x : Str), (k, v) ∈ vals → attr k = some (.text x) → v ≠ x → v ≠ [] → (k, .text v) ∈ (plotVals attr ev vals).1

/-- **C234 fails**: the settings are emptied first and read up to the first entry that cannot be used (mainwindow.py:961-981): all after it are lost, also those that were set before -/
theorem bad_entry_fails : ¬ EachSet := by
  intro h
  have := h (fun k => if k = c!"k" then some (.text c!"x") else none) (fun _ => none) [(c!"new", c!"1"), (c!"k", c!"y")] c!"k" c!"y" c!"x" (by decide) rfl (by decide) (by decide)
  revert this
  decide

/-- every text can be chosen for a setting that is a text -/
def AnyText : Prop := ∀ (attr : Str → Option Cur) (ev : Str → Option Val) (k v x : Str), attr k = some (.text x) → v ≠ x → (k, .text v) ∈ (plotVals attr ev [(k, v)]).1

/-- **C234 fails**: the empty text means the default (mainwindow.py:964) -/
theorem empty_text_fails : ¬ AnyText := by
  intro h
  have := h (fun _ => some (.text c!"x")) (fun _ => none) c!"k" [] c!"x" rfl (by decide)
  revert this
  decide

/-- **C234 fails**: if the script has an export every `g.export` becomes a comment (mainwindow.py:1906-1908), also within other names like `fig.export` -/
theorem export_fails : ¬ ∀ t : Str, contains c!"fig.export(1)" t = true → contains c!"fig.export(1)" (execText t) = true := by
  intro h
  have := h c!"g.export();fig.export(1)" (by decide +kernel)
  revert this
  decide +kernel

end Verif.GuiEdit
