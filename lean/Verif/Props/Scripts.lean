import Mathlib.Algebra.BigOperators.Group.List.Basic
import Mathlib.Tactic.Ring
import Verif.Model.Scripts
import Verif.Props.ParamNames
import Verif.Props.CovMat
import Verif.Props.BatchItems
import Verif.Props.GridFiles

/-!
# Small scripts (C200, C201)
-/

set_option linter.unusedSectionVars false

namespace Verif.Scripts
open Verif.Py

theorem mapM_ok {α β : Type} {f : α → Except Err β} {g : α → β} {l : List α} (h : ∀ a ∈ l, f a = .ok (g a)) : l.mapM f = .ok (l.map g) := by
  induction l with
  | nil => rfl
  | cons a l ih =>
    rw [List.mapM_cons, h a (List.mem_cons_self ..), ih fun b hb => h b (List.mem_cons_of_mem _ hb)]
    rfl

/-! ### looking at a chain -/

theorem column_spec {F : Type} (c : Nat) (d : List (List F)) (hd : ∀ r ∈ d, c < r.length) (x : F) : column c d = .ok (d.map fun r => r.getD c x) := by
  induction d with
  | nil => rfl
  | cons r d ih =>
    have h := hd r (List.mem_cons_self ..)
    rw [column, List.getElem?_eq_getElem h, ih fun r hr => hd r (List.mem_cons_of_mem _ hr)]
    simp [List.getD_eq_getElem?_getD, List.getElem?_eq_getElem h]

/-- **C200** What is printed for a parameter of the chain are its values in the first chain: the columns are weight, likelihood and the parameters in order. -/
theorem peek_spec {F : Type} (abs : Str → Str) (load : Str → Except Err (List (List F))) (names : Str → Except Err (List ParamNames.Info)) (prog root param : Str) (ps : List ParamNames.Info)
    (d : List (List F)) (k : Nat) (p : ParamNames.Info) (hn : names (abs root ++ c!".paramnames") = .ok ps) (hl : load (abs root ++ c!"_1.txt") = .ok d)
    (hd : ∀ r ∈ d, r.length = ps.length + 2) (hk : ps[k]? = some p) (hp : p.name = param) (hu : ∀ i q, i < k → ps[i]? = some q → q.name ≠ param) (x : F) :
    peek abs load names [prog, root, param] = .ok (d.map fun r => (r.drop 2).getD k x) := by
  have hnum : ParamNames.numberOfName ps param = (k : Int) := by
    rcases ParamNames.numberOfName_spec ps param with ⟨-, -, h⟩ | ⟨j, q, h1, -, h2, h3, h4⟩
    · exact absurd hp (h p (List.mem_of_getElem? hk))
    · rw [h1]
      rcases Nat.lt_trichotomy j k with h | h | h
      · exact absurd h3 (hu j q h h2)
      · rw [h]
      · exact absurd hp (h4 k p h hk)
  have hlt : k < ps.length := (List.getElem?_eq_some_iff.1 hk).1
  unfold peek
  simp only [peekIndex, List.length_cons, List.length_nil]
  rw [if_neg (by omega)]
  simp only
  rw [show abs root ++ c!"_" ++ strNat 1 ++ c!".txt" = abs root ++ c!"_1.txt" by rw [show strNat 1 = c!"1" from rfl, List.append_assoc, List.append_assoc]; rfl, hl]
  simp only
  rw [hn]
  simp only
  rw [hnum, show ((k : Int) + 2).toNat = k + 2 by omega, column_spec (k + 2) d (fun r hr => by rw [hd r hr]; omega) x]
  congr 1
  refine List.map_congr_left fun r _ => ?_
  simp [List.getD_eq_getElem?_getD, Nat.add_comm]

/-! ### scaling covariances -/

section cov
variable {K : Type} [Field K] [LinearOrder K] [IsStrictOrderedRing K] [FloorRing K]
open Cov

/-- the factor of a parameter: the product of those given for it -/
def factor (l : List (Str × K)) (p : Str) : K := ((l.filter fun e => e.1 = p).map (·.2)).prod

theorem factor_cons (p : Str) (x : K) (l : List (Str × K)) (q : Str) : factor ((p, x) :: l) q = (if q = p then x else 1) * factor l q := by
  unfold factor
  rw [List.filter_cons]
  by_cases h : p = q
  · subst h; simp
  · have h' : ¬ q = p := fun e => h e.symm
    simp [h, h']

theorem scaleAll_spec (float : Str → Option K) (l : List (Str × Str)) (xs : List K) (hx : List.Forall₂ (fun e x => float e.2 = some x) l xs) (c : CovMat K) (h : Cov.Good c) :
    ∃ c', scaleAll float l c = .ok c' ∧ Cov.Good c' ∧ c'.names = c.names ∧ ∀ q r, q ∈ c.names → r ∈ c.names →
      entry c' q r = (entry c q r).map fun v => v * factor ((l.map (·.1)).zip xs) q * factor ((l.map (·.1)).zip xs) r := by
  induction hx generalizing c with
  | nil => exact ⟨c, rfl, h, rfl, fun q r _ _ => by simp [factor]⟩
  | @cons e x l xs he _ ih =>
    obtain ⟨p, s⟩ := e
    have he : float s = some x := he
    by_cases hp : p ∈ c.names
    · obtain ⟨c1, h1, h2, h3, -, h5⟩ := rescale_spec h hp x
      obtain ⟨c2, g1, g2, g3, g4⟩ := ih c1 h2
      refine ⟨c2, by rw [scaleAll, he]; simp only; rw [h1]; exact g1, g2, g3.trans h3, fun q r hq hr => ?_⟩
      rw [g4 q r (h3 ▸ hq) (h3 ▸ hr), h5 q r hq hr, Option.map_map]
      congr 1
      funext v
      simp only [Function.comp, List.map_cons, List.zip_cons_cons, factor_cons]
      ring
    · obtain ⟨c2, g1, g2, g3, g4⟩ := ih c h
      refine ⟨c2, by rw [scaleAll, he]; simp only; rw [rescale_unknown c hp]; exact g1, g2, g3, fun q r hq hr => ?_⟩
      rw [g4 q r hq hr]
      have e1 : p ≠ q := fun e => hp (e ▸ hq)
      have e2 : p ≠ r := fun e => hp (e ▸ hr)
      simp [factor, e1, e2]

/-- **C200** `covscale` writes for each matrix of the directory one of the same name, with each covariance times the factors of its two parameters. -/
theorem covscale_spec (abs : Str → Str) (float : Str → Option K) (listdir : Str → List Str) (load : Str → Except Err (CovMat K)) (prog a b ps fs : Str) (names facs : List Str) (xs : List K)
    (hps : splitChar ':' ps = names) (hfs : splitChar ':' fs = facs) (hlen : names.length = facs.length) (hx : List.Forall₂ (fun s x => float s = some x) facs xs) (cov : Str → CovMat K)
    (hl : ∀ f ∈ listdir (abs a ++ c!"/"), endsWith c!".covmat" f = true → load (abs a ++ c!"/" ++ f) = .ok (cov f) ∧ Cov.Good (cov f)) :
    ∃ out, covscale abs float listdir load [prog, a, b, ps, fs] = .ok out ∧
      List.Forall₂ (fun f o => o.1 = abs b ++ c!"/" ++ f ∧ Cov.Good o.2 ∧ o.2.names = (cov f).names ∧ ∀ q r, q ∈ (cov f).names → r ∈ (cov f).names →
        entry o.2 q r = (entry (cov f) q r).map fun v => v * factor (names.zip xs) q * factor (names.zip xs) r)
        ((listdir (abs a ++ c!"/")).filter (endsWith c!".covmat")) out := by
  have hx2 : List.Forall₂ (fun (e : Str × Str) x => float e.2 = some x) (names.zip facs) xs := by
    clear hps hfs hl
    induction hx generalizing names with
    | nil => rw [List.zip_nil_right]; exact .nil
    | @cons s x facs xs h _ ih =>
      cases names with
      | nil => simp at hlen
      | cons n names => exact .cons h (ih names (by simpa using hlen))
  have hfst : (names.zip facs).map (·.1) = names := List.map_fst_zip (by omega)
  unfold covscale
  simp only [hps, hfs]
  generalize listdir (abs a ++ c!"/") = files at hl
  induction files with
  | nil => exact ⟨[], rfl, .nil⟩
  | cons f files ih =>
    obtain ⟨out, h1, h2⟩ := ih fun f hf => hl f (List.mem_cons_of_mem _ hf)
    by_cases hf : endsWith c!".covmat" f = true
    · obtain ⟨g1, g2⟩ := hl f (List.mem_cons_self ..) hf
      obtain ⟨c', k1, k2, k3, k4⟩ := scaleAll_spec float (names.zip facs) xs hx2 (cov f) g2
      rw [hfst] at k4
      refine ⟨(abs b ++ c!"/" ++ f, c') :: out, ?_, ?_⟩
      · rw [scaleFiles, if_pos hf, g1]
        simp only
        rw [k1]
        simp only
        rw [h1]
      · rw [List.filter_cons_of_pos hf]
        exact .cons ⟨rfl, k2, k3, k4⟩ h2
    · refine ⟨out, ?_, ?_⟩
      · rw [scaleFiles, if_neg hf, h1]
      · rw [List.filter_cons_of_neg hf]
        exact h2

end cov

/-! ### LaTeX of limits -/

/-- the first text of a parameter -/
def firstText (tex : Str → Except Err (Option (List Str))) (p : Str) (t : Str) : Prop := ∃ l, tex p = .ok (some (t :: l))

/-- **C200** All parameters given (or all there are) are found with label and text, in order. -/
theorem params_tex (all : List Str) (tex : Str → Except Err (Option (List Str))) (label text : Str → Str) (params : List Str)
    (h : ∀ p ∈ (if params = [] then all else params), firstText tex p (text p)) :
    margeParamTex all tex label params = .ok ((if params = [] then all else params).map fun p => (p, some (label p, text p))) := by
  unfold margeParamTex
  generalize (if params = [] then all else params) = ps at h
  induction ps with
  | nil => rfl
  | cons p ps ih =>
    obtain ⟨l, hl⟩ := h p (List.mem_cons_self ..)
    rw [List.mapM_cons, ih fun q hq => h q (List.mem_cons_of_mem _ hq), hl]
    rfl

theorem snippetName_inj (root tag p q : Str) (h : snippetName root p tag = snippetName root q tag) : p = q := by
  unfold snippetName at h
  simp only [List.append_assoc] at h
  exact List.append_cancel_right (List.append_cancel_left (List.append_cancel_left h))

theorem join_inj_right (d a b : Str) (ha : startsWith ['/'] a = false) (hb : startsWith ['/'] b = false) (h : Path.join d a = Path.join d b) : a = b := by
  unfold Path.join at h
  rw [ha, hb, if_neg Bool.false_ne_true, if_neg Bool.false_ne_true] at h
  split_ifs at h
  · exact List.append_cancel_left h
  · have := List.append_cancel_left h
    exact (List.cons.inj this).2

/-- **C200** There is a snippet for each parameter, with its text, and other files are as before. -/
theorem snippets_spec (dir root tag : Str) (l : List (Str × Str × Str)) (hn : (l.map (·.1)).Nodup) (hs : ∀ p ∈ l.map (·.1), startsWith ['/'] (snippetName root p tag) = false) (fs : Dict Str Str) :
    ∃ fs', snippets dir root tag (l.map fun e => (e.1, some e.2)) fs = (fs', none) ∧ (∀ e ∈ l, fs'.get? (Path.join dir (snippetName root e.1 tag)) = some e.2.2) ∧
      ∀ f, (∀ e ∈ l, f ≠ Path.join dir (snippetName root e.1 tag)) → fs'.get? f = fs.get? f := by
  induction l generalizing fs with
  | nil => exact ⟨fs, rfl, fun e he => absurd he (List.not_mem_nil), fun f _ => rfl⟩
  | cons e l ih =>
    obtain ⟨p, lab, t⟩ := e
    rw [List.map_cons, List.nodup_cons] at hn
    obtain ⟨fs', h1, h2, h3⟩ := ih hn.2 (fun p hp => hs p (List.mem_cons_of_mem _ hp)) (fs.set (Path.join dir (snippetName root p tag)) t)
    refine ⟨fs', h1, ?_, ?_⟩
    · intro e he
      rcases List.mem_cons.1 he with rfl | he
      · rw [h3, Dict.get?_set_self]
        intro e he hj
        have := snippetName_inj _ _ _ _ (join_inj_right dir _ _ (hs p (List.mem_cons_self ..)) (hs e.1 (List.mem_cons_of_mem _ (List.mem_map.2 ⟨e, he, rfl⟩))) hj)
        exact hn.1 (List.mem_map.2 ⟨e, he, this.symm⟩)
      · exact h2 e he
    · intro f hf
      rw [h3 f fun e he => hf e (List.mem_cons_of_mem _ he), Dict.get?_set_of_ne _ _ (hf _ (List.mem_cons_self ..))]

/-- **C200** Printed rows have the label and the text, in mathematics unless there is no limit. -/
theorem latex_rows (l : List (Str × Str × Str)) :
    printLatex true (l.map fun e => (e.1, some e.2)) =
      .ok (l.map fun e => c!"$ " ++ pad33 e.2.1 ++ (if e.2.2 = c!"---" then c!"$ &   " ++ pad33 e.2.2 ++ c!" \\\\" else c!"$ & $ " ++ pad33 e.2.2 ++ c!"$\\\\")) := by
  unfold printLatex
  induction l with
  | nil => rfl
  | cons e l ih =>
    obtain ⟨p, lab, t⟩ := e
    rw [List.map_cons, List.mapM_cons, ih, List.map_cons]
    by_cases h : t = c!"---"
    · simp only [latexLine, if_true, if_neg (not_not.2 h), if_pos h, bind, Except.bind, pure, Except.pure, List.append_assoc]
    · simp only [latexLine, if_true, if_pos h, if_neg h, bind, Except.bind, pure, Except.pure, List.append_assoc]

/-! ### comparing parameters -/

/-- the members of a list in the order in which they first occur -/
def firsts (l : List Str) : List Str := l.reverse.dedup.reverse

theorem firsts_append (l : List Str) (x : Str) : firsts (l ++ [x]) = addTag x (firsts l) := by
  unfold firsts addTag
  rw [List.reverse_append, List.reverse_singleton, List.singleton_append]
  by_cases h : x ∈ l
  · rw [List.dedup_cons_of_mem (List.mem_reverse.2 h), if_pos (by simpa using h)]
  · rw [List.dedup_cons_of_notMem (fun g => h (List.mem_reverse.1 g)), if_neg (by simpa using h), List.reverse_cons]

/-- the last value for models, data and parameter -/
def lastVal (vs : List Val) (pt nd p : Str) : Option (List Str) := (vs.reverse.find? fun v => decide (v.paramtag = pt ∧ v.data = nd ∧ v.par = p)).map (·.texts)

def cellOf (t : Cells) (pt nd p : Str) : Option (List Str) := ((((t.get? pt).getD []).get? nd).getD []).get? p

theorem cell_add (pt nd p : Str) (v : List Str) (t : Cells) (pt' nd' p' : Str) :
    cellOf (addCell pt nd p v t) pt' nd' p' = if pt = pt' ∧ nd = nd' ∧ p = p' then some v else cellOf t pt' nd' p' := by
  unfold cellOf addCell
  rw [Dict.get?_set]
  by_cases h1 : pt' = pt
  · subst h1
    rw [if_pos rfl, Option.getD_some, Dict.get?_set]
    by_cases h2 : nd' = nd
    · subst h2
      rw [if_pos rfl, Option.getD_some, Dict.get?_set]
      by_cases h3 : p' = p
      · subst h3; simp
      · rw [if_neg h3, if_neg (fun h => h3 h.2.2.symm)]
    · rw [if_neg h2, if_neg (fun h => h2 h.2.1.symm)]
  · rw [if_neg h1, if_neg (fun h => h1 h.1.symm)]

theorem keys_set' {ν : Type} (d : Dict Str ν) (k : Str) (v : ν) : (d.set k v).keys = addTag k d.keys := by
  unfold addTag
  by_cases h : k ∈ d.keys
  · rw [if_pos h, Dict.keys_set_of_mem v h]
  · rw [if_neg h, Dict.set_of_not_mem v h, Dict.keys_append]
    rfl

theorem keys_add (pt nd p : Str) (v : List Str) (t : Cells) (pt' : Str) :
    (((addCell pt nd p v t).get? pt').getD []).keys = if pt = pt' then addTag nd ((t.get? pt').getD []).keys else ((t.get? pt').getD []).keys := by
  unfold addCell
  rw [Dict.get?_set]
  by_cases h1 : pt' = pt
  · subst h1
    rw [if_pos rfl, if_pos rfl, Option.getD_some, keys_set']
  · rw [if_neg h1, if_neg (Ne.symm h1)]

/-- what has been collected from some values -/
structure Collected (vs : List Val) (t : Cells) (m : Dict Str (List Str)) : Prop where
  cell : ∀ pt nd p, cellOf t pt nd p = lastVal vs pt nd p
  data : ∀ pt, ((t.get? pt).getD []).keys = firsts ((vs.filter fun v => v.paramtag = pt).map (·.data))
  models : ∀ p, (m.get? p).getD [] = firsts ((vs.filter fun v => v.par = p).map (·.paramtag))

theorem Collected.step {vs : List Val} {t : Cells} {m : Dict Str (List Str)} (h : Collected vs t m) (v : Val) :
    Collected (vs ++ [v]) (addCell v.paramtag v.data v.par v.texts t) (m.set v.par (addTag v.paramtag ((m.get? v.par).getD []))) where
  cell pt nd p := by
    rw [cell_add, h.cell]
    unfold lastVal
    rw [List.reverse_append, List.reverse_singleton, List.singleton_append, List.find?_cons]
    by_cases hv : v.paramtag = pt ∧ v.data = nd ∧ v.par = p
    · rw [if_pos hv, decide_eq_true hv]; rfl
    · rw [if_neg hv, decide_eq_false hv]
  data pt := by
    rw [keys_add, h.data, List.filter_append]
    by_cases hv : v.paramtag = pt
    · rw [if_pos hv, List.filter_cons_of_pos (by simpa using hv), List.filter_nil, List.map_append, List.map_singleton, firsts_append]
    · rw [if_neg hv, List.filter_cons_of_neg (by simpa using hv), List.filter_nil, List.append_nil]
  models p := by
    rw [Dict.get?_set, List.filter_append]
    by_cases hv : v.par = p
    · subst hv
      rw [if_pos rfl, Option.getD_some, h.models, List.filter_cons_of_pos (by simp), List.filter_nil, List.map_append, List.map_singleton, firsts_append]
    · rw [if_neg (Ne.symm hv), List.filter_cons_of_neg (by simpa using hv), List.filter_nil, List.append_nil, h.models]

theorem collect_collected (vs us : List Val) (t : Cells) (m : Dict Str (List Str)) (h : Collected us t m) : Collected (us ++ vs) (collect vs t m).1 (collect vs t m).2 := by
  induction vs generalizing us t m with
  | nil => simpa [collect] using h
  | cons v vs ih =>
    have := ih (us ++ [v]) _ _ (h.step v)
    rw [List.append_assoc, List.singleton_append] at this
    exact this

theorem collected_nil : Collected [] [] [] := ⟨fun _ _ _ => rfl, fun _ => rfl, fun _ => rfl⟩

/-- the columns of a value: the best fit if there is one, and the limit, in mathematics unless there is none -/
def shownVal (a : CArgs) (v : List Str) : List Str := ((v.drop 1).take 1).map (mathText a) ++ (v.take 1).map fun r => if r = c!"---" then r else mathText a r

theorem valCols_eq (a : CArgs) (v : List Str) (h : v ≠ []) : valCols a v = .ok (shownVal a v) := by
  match v with
  | [] => exact absurd rfl h
  | [r] => rfl
  | r :: b :: l => rfl

theorem dataCols_eq (a : CArgs) (cell : Dict Str (List Str)) (hc : ∀ p v, cell.get? p = some v → v ≠ []) (ps : List Str) :
    dataCols a cell ps = .ok (ps.flatMap fun p => match cell.get? p with | none => [] | some v => shownVal a v) := by
  induction ps with
  | nil => rfl
  | cons p ps ih =>
    rw [dataCols, List.flatMap_cons, ih]
    cases h : cell.get? p with
    | none => rfl
    | some v =>
      simp only
      rw [valCols_eq a v (hc p v h)]

theorem rowCols_eq (a : CArgs) (row : Dict Str (Dict Str (List Str))) (hc : ∀ d p v, ((row.get? d).getD []).get? p = some v → v ≠ []) (ds : List Str) :
    rowCols a row ds = .ok (ds.flatMap fun d => a.params.flatMap fun p => match ((row.get? d).getD []).get? p with | none => [] | some v => shownVal a v) := by
  induction ds with
  | nil => rfl
  | cons d ds ih =>
    rw [rowCols, dataCols_eq a _ (hc d), ih, List.flatMap_cons]

/-- order of the sets of data: that in which they are found, or the one asked for -/
def dataOrder (a : CArgs) (vs : List Val) (pt : Str) : List Str :=
  match a.compare with
  | none => firsts ((vs.filter fun v => v.paramtag = pt).map (·.data))
  | some l => (l.map Batch.normalizeDataTag).filter fun d => d ∈ (vs.filter fun v => v.paramtag = pt).map (·.data)

theorem firsts_mem (l : List Str) (x : Str) : x ∈ firsts l ↔ x ∈ l := by simp [firsts]

theorem firsts_nodup (l : List Str) : (firsts l).Nodup := by
  unfold firsts
  rw [List.nodup_reverse]
  exact List.nodup_dedup _

theorem filter_eq_nodup (l : List Str) (h : l.Nodup) (x : Str) : l.filter (· = x) = if x ∈ l then [x] else [] := by
  induction l with
  | nil => rfl
  | cons y l ih =>
    rw [List.nodup_cons] at h
    rw [List.filter_cons, ih h.2]
    by_cases hy : y = x
    · subst hy; simp [h.1]
    · simp [hy, Ne.symm hy]

theorem sortData_eq (keys tags : List Str) (h : keys.Nodup) : sortData keys tags = tags.filter (· ∈ keys) := by
  unfold sortData
  induction tags with
  | nil => rfl
  | cons t tags ih =>
    rw [List.flatMap_cons, ih, filter_eq_nodup keys h]
    by_cases ht : t ∈ keys
    · rw [if_pos ht, List.filter_cons_of_pos (by simpa using ht)]; rfl
    · rw [if_neg ht, List.filter_cons_of_neg (by simpa using ht)]; rfl

/-- **C200** There is one line for each parameter and each set of models having it, in the order found; it has the label and for each set of data, in the order found or asked
for, the last values found of the parameters. -/
theorem compare_spec (a : CArgs) (tex : Batch.Info → Option (Str → Option (List Str))) (label : Str → Except Err Str) (lab : Str → Str) (items : List Batch.Info)
    (hl : ∀ p ∈ a.params, label p = .ok (lab p)) (ht : ∀ j t p v, tex j = some t → t p = some v → v ≠ []) :
    compareLines a tex label items = .ok (a.params.flatMap fun p => (firsts (((allVals a tex items).filter fun v => v.par = p).map (·.paramtag))).map fun pt =>
      join c!" & " (mathText a (lab p) :: (dataOrder a (allVals a tex items) pt).flatMap fun d => a.params.flatMap fun q =>
        match lastVal (allVals a tex items) pt d q with | none => [] | some v => shownVal a v) ++ a.endline) := by
  have hc := collect_collected (allVals a tex items) [] [] [] collected_nil
  rw [List.nil_append] at hc
  have hne : ∀ pt d p v, lastVal (allVals a tex items) pt d p = some v → v ≠ [] := by
    intro pt d p v hv
    unfold lastVal at hv
    rw [Option.map_eq_some_iff] at hv
    obtain ⟨w, hw, rfl⟩ := hv
    have hw2 := List.mem_reverse.1 (List.mem_of_find?_eq_some hw)
    unfold allVals at hw2
    rw [List.mem_flatMap] at hw2
    obtain ⟨j, -, hj⟩ := hw2
    unfold itemVals at hj
    cases h : tex j with
    | none => rw [h] at hj; cases hj
    | some t =>
      rw [h] at hj
      simp only [List.mem_filterMap, Option.map_eq_some_iff] at hj
      obtain ⟨p, -, u, hu, rfl⟩ := hj
      exact ht j t p u h hu
  have hline : ∀ p ∈ a.params, ∀ pt, compareLine a label (collect (allVals a tex items) [] []).1 p pt = .ok (join c!" & " (mathText a (lab p) ::
      (dataOrder a (allVals a tex items) pt).flatMap fun d => a.params.flatMap fun q =>
        match lastVal (allVals a tex items) pt d q with | none => [] | some v => shownVal a v) ++ a.endline) := by
    intro p hp pt
    unfold compareLine
    rw [hl p hp]
    simp only
    have hcell : ∀ d q, (((((collect (allVals a tex items) [] []).1.get? pt).getD []).get? d).getD []).get? q = lastVal (allVals a tex items) pt d q := fun d q => hc.cell pt d q
    rw [rowCols_eq a _ (fun d q v h => hne pt d q v (by rw [← hcell]; exact h))]
    have hord : rowOrder a (((collect (allVals a tex items) [] []).1.get? pt).getD []).keys = dataOrder a (allVals a tex items) pt := by
      unfold dataOrder rowOrder CArgs.tags
      cases a.compare with
      | none => exact hc.data pt
      | some l =>
        simp only [Option.map_some]
        rw [hc.data pt, sortData_eq _ _ (firsts_nodup _)]
        refine List.filter_congr fun x _ => ?_
        simp only [firsts_mem]
    rw [hord]
    simp only [hcell]
  unfold compareLines
  simp only
  rw [show (a.params.flatMap fun p => (((collect (allVals a tex items) [] []).2.get? p).getD []).map fun t => (p, t)) =
      a.params.flatMap fun p => (firsts (((allVals a tex items).filter fun v => v.par = p).map (·.paramtag))).map fun t => (p, t) from
    List.flatMap_congr fun p _ => by rw [hc.models p]]
  rw [mapM_ok (g := fun pt : Str × Str => join c!" & " (mathText a (lab pt.1) :: (dataOrder a (allVals a tex items) pt.2).flatMap fun d => a.params.flatMap fun q =>
        match lastVal (allVals a tex items) pt.2 d q with | none => [] | some v => shownVal a v) ++ a.endline) ?_]
  · rw [List.map_flatMap]
    simp only [List.map_map, Function.comp_def]
  · intro pt hpt
    rw [List.mem_flatMap] at hpt
    obtain ⟨p, hp, hpt⟩ := hpt
    obtain ⟨t, -, rfl⟩ := List.mem_map.1 hpt
    exact hline p hp t

/-- **C200** The file is written if its directory exists; the extension is added to names without a dot. -/
theorem written_spec (isdir : Str → Bool) (dir name : Str) (hd : Path.Plain dir) (hn : '/' ∉ name) (hdot : '.' ∉ dir ++ name) (h : isdir dir = true) :
    writtenTo isdir (dir ++ c!"/" ++ name) = .ok (dir ++ c!"/" ++ name ++ c!".tex") := by
  have hc : contains c!"." (dir ++ c!"/" ++ name) = false := by
    rw [Bool.eq_false_iff]
    intro h
    obtain ⟨a, b, e⟩ := contains_iff.1 h
    have : '.' ∈ dir ++ c!"/" ++ name := by rw [e]; simp
    simp only [List.mem_append] at this hdot
    rcases this with (h | h) | h
    · exact hdot (Or.inl h)
    · exact absurd h (by decide)
    · exact hdot (Or.inr h)
  unfold writtenTo
  simp only [hc, Bool.false_eq_true, if_false]
  have hdir : Path.dirname (dir ++ c!"/" ++ name ++ c!".tex") = dir := by
    rw [List.append_assoc, List.append_assoc]
    refine Path.dirname_join hd ?_
    show '/' ∉ name ++ c!".tex"
    rw [List.mem_append]
    rintro (h | h)
    · exact hn h
    · exact absurd h (by decide)
  rw [hdir, if_pos h]

/-! ### jobs in the queue -/

/-- **C200** A job of the queue is shown exactly if it runs or minimizes an item of the grid; then by one line, and one for each of its names if there are several. -/
theorem running_shown (items : List (Str × Option Str)) (q : List QJob) :
    runningJobs (some items) (some q) = .ok ((q.filter fun j => decide (∃ i ∈ items, i.1 ∈ j.names ∨ i.1 ++ c!"_minimize" ∈ j.names)).flatMap (jobLines items)) := by
  unfold runningJobs
  simp only [Option.getD_some]
  congr 2
  refine List.filter_congr fun j _ => ?_
  rw [Bool.eq_iff_iff, List.any_eq_true, decide_eq_true_eq]
  constructor
  · rintro ⟨n, hn, hb⟩
    have hb := List.contains_iff_mem.1 hb
    unfold batchNames at hb
    rcases List.mem_append.1 hb with h | h
    · obtain ⟨i, hi, rfl⟩ := List.mem_map.1 h
      exact ⟨i, hi, Or.inl hn⟩
    · obtain ⟨i, hi, rfl⟩ := List.mem_map.1 h
      exact ⟨i, hi, Or.inr hn⟩
  · rintro ⟨i, hi, h | h⟩
    · exact ⟨i.1, h, List.contains_iff_mem.2 (List.mem_append_left _ (List.mem_map.2 ⟨i, hi, rfl⟩))⟩
    · exact ⟨_, h, List.contains_iff_mem.2 (List.mem_append_right _ (List.mem_map.2 ⟨i, hi, rfl⟩))⟩

/-- **C200** With distinct names of items the convergence of an item is shown with its name, in the line of the job and below it. -/
theorem running_stat (items : List (Str × Option Str)) (hn : (items.map (·.1)).Nodup) (j : QJob) (n r : Str) (hi : (n, some r) ∈ items) (hj : n ∈ j.names) :
    (j.name = n → (jobLines items j).head? = some (j.info ++ c!" | " ++ r ++ c!" " ++ n)) ∧ (1 < j.names.length → c!"    >>  " ++ r ++ c!" " ++ n ∈ jobLines items j) := by
  have hs : statOf items j.names n = some r := by
    unfold statOf
    rw [if_pos hj]
    have : items.find? (fun i => decide (i.1 = n)) = some (n, some r) := by
      clear hj
      induction items with
      | nil => cases hi
      | cons a items ih =>
        rw [List.map_cons, List.nodup_cons] at hn
        rw [List.find?_cons]
        rcases List.mem_cons.1 hi with rfl | hi
        · simp
        · have : a.1 ≠ n := fun e => hn.1 (List.mem_map.2 ⟨_, hi, e.symm⟩)
          rw [decide_eq_false this]
          exact ih hn.2 hi
    rw [this]
    rfl
  constructor
  · rintro rfl
    unfold jobLines
    rw [hs]
    rfl
  · intro hl
    unfold jobLines
    rw [if_pos hl]
    refine List.mem_cons_of_mem _ (List.mem_map.2 ⟨n, hj, ?_⟩)
    rw [hs]
    rfl

/-! ### adding grids -/

open Batch

mutual
/-- a job without those below it that have a property, and without what is below these -/
def prune (P : Nat × Info → Bool) : Job → Job
  | .node i u cs => .node i u (pruneL P cs)
def pruneL (P : Nat × Info → Bool) : List Job → List Job
  | [] => []
  | c :: cs => if P (key c) then pruneL P cs else prune P c :: pruneL P cs
end

theorem key_prune (P : Nat × Info → Bool) : ∀ j : Job, key (prune P j) = key j
  | .node i u cs => by rw [prune]; rfl

mutual
theorem prune_prune (P Q : Nat × Info → Bool) : ∀ j : Job, prune P (prune Q j) = prune (fun k => Q k || P k) j
  | .node i u cs => by rw [prune, prune, prune, pruneL_pruneL P Q cs]
theorem pruneL_pruneL (P Q : Nat × Info → Bool) : ∀ l : List Job, pruneL P (pruneL Q l) = pruneL (fun k => Q k || P k) l
  | [] => rfl
  | c :: cs => by
    rw [pruneL, pruneL]
    by_cases hq : Q (key c) = true
    · rw [if_pos hq, if_pos (by rw [hq]; rfl), pruneL_pruneL P Q cs]
    · rw [if_neg hq, pruneL, key_prune, prune_prune P Q c, pruneL_pruneL P Q cs]
      have hq' : Q (key c) = false := by simpa using hq
      simp only [hq', Bool.false_or]
end

mutual
theorem prune_congr (P Q : Nat × Info → Bool) : ∀ j : Job, (∀ k ∈ K j, P k = Q k) → prune P j = prune Q j
  | .node i u cs, h => by
    rw [prune, prune, pruneL_congr P Q cs (fun c hc => h (key c) (by rw [K_node]; exact List.mem_append_left _ (List.mem_map.2 ⟨c, hc, rfl⟩)))
      (fun c hc k hk => h k (by rw [K_node]; exact List.mem_append_right _ (List.mem_flatMap.2 ⟨c, hc, hk⟩)))]
theorem pruneL_congr (P Q : Nat × Info → Bool) : ∀ l : List Job, (∀ c ∈ l, P (key c) = Q (key c)) → (∀ c ∈ l, ∀ k ∈ K c, P k = Q k) → pruneL P l = pruneL Q l
  | [], _, _ => rfl
  | c :: cs, h1, h2 => by
    rw [pruneL, pruneL, h1 c (List.mem_cons_self ..), prune_congr P Q c (h2 c (List.mem_cons_self ..)),
      pruneL_congr P Q cs (fun c hc => h1 c (List.mem_cons_of_mem _ hc)) (fun c hc => h2 c (List.mem_cons_of_mem _ hc))]
end

mutual
theorem prune_none : ∀ j : Job, prune (fun _ => false) j = j
  | .node i u cs => by rw [prune, pruneL_none cs]
theorem pruneL_none : ∀ l : List Job, pruneL (fun _ => false) l = l
  | [] => rfl
  | c :: cs => by rw [pruneL, if_neg (by simp), prune_none c, pruneL_none cs]
end

mutual
theorem rm_prune (u : Nat) : ∀ j : Job, ((K j).map Prod.fst).Nodup → rm u j = prune (fun k => k.1 == u) j
  | .node i v cs, h => by
    obtain ⟨h1, h2, h3⟩ := nodup_append_K h
    rw [rm, prune]
    split_ifs with hu
    · congr 1
      exact erase_pruneL u cs h1 hu (fun c hc k hk e => h3 c hc k hk (e ▸ hu))
    · congr 1
      exact rmL_pruneL u cs hu h2
theorem rmL_pruneL (u : Nat) : ∀ l : List Job, u ∉ l.map Job.uid → (∀ c ∈ l, ((K c).map Prod.fst).Nodup) → rmL u l = pruneL (fun k => k.1 == u) l
  | [], _, _ => by rw [rmL, pruneL]
  | c :: cs, hu, h => by
    rw [List.map_cons, List.mem_cons, not_or] at hu
    have hne : ¬ ((key c).1 == u) = true := by
      rw [beq_iff_eq]
      exact fun e => hu.1 e.symm
    rw [rmL, pruneL, if_neg hne, rm_prune u c (h c (List.mem_cons_self ..)), rmL_pruneL u cs hu.2 fun c hc => h c (List.mem_cons_of_mem _ hc)]
theorem erase_pruneL (u : Nat) : ∀ l : List Job, (l.map Job.uid).Nodup → u ∈ l.map Job.uid → (∀ c ∈ l, ∀ k ∈ K c, k.1 ≠ u) → l.eraseP (fun c => c.uid == u) = pruneL (fun k => k.1 == u) l
  | [], _, hu, _ => by cases hu
  | c :: cs, hn, hu, h => by
    rw [List.map_cons, List.nodup_cons] at hn
    have hc : prune (fun k => k.1 == u) c = c := by
      rw [prune_congr _ (fun _ => false) c (fun k hk => by simpa using h c (List.mem_cons_self ..) k hk), prune_none]
    have hrest : ∀ l : List Job, u ∉ l.map Job.uid → (∀ c ∈ l, ∀ k ∈ K c, k.1 ≠ u) → pruneL (fun k => k.1 == u) l = l := by
      intro l hl h'
      rw [pruneL_congr _ (fun _ => false) l (fun c hc => by
        rw [beq_eq_false_iff_ne]
        exact fun e => hl (List.mem_map.2 ⟨c, hc, e⟩)) (fun c hc k hk => by simpa using h' c hc k hk), pruneL_none]
    rw [List.eraseP_cons, pruneL]
    by_cases he : c.uid = u
    · have hb : (c.uid == u) = true := by simpa using he
      have hk : ((key c).1 == u) = true := hb
      rw [hb, if_pos hk, hrest cs (he ▸ hn.1) fun c hc => h c (List.mem_cons_of_mem _ hc)]
      rfl
    · have hb : (c.uid == u) = false := by simpa using he
      have hk : ¬ ((key c).1 == u) = true := by simpa [key] using he
      rw [hb, if_neg hk, hc, ← erase_pruneL u cs hn.2 ((List.mem_cons.1 hu).resolve_left fun e => he e.symm) fun c hc => h c (List.mem_cons_of_mem _ hc)]
      rfl
end

theorem replaceLoop_prune (names : List Str) (xs : List Job) (j : Job) (hn : ((K j).map Prod.fst).Nodup) :
    replaceLoop names xs j = prune (fun k => xs.any fun x => x.uid == k.1 && decide (replaceStr c!"_post" [] x.info.name ∈ names)) j := by
  induction xs generalizing j with
  | nil => rw [replaceLoop]; exact (prune_none j).symm
  | cons x xs ih =>
    rw [replaceLoop]
    by_cases hx : replaceStr c!"_post" [] x.info.name ∈ names
    · rw [if_pos hx, ih _ (hn.sublist ((rm_sublist x.uid j).map _)), rm_prune x.uid j hn, prune_prune]
      refine prune_congr _ _ j fun k _ => ?_
      rw [List.any_cons, decide_eq_true hx, Bool.and_true]
      congr 1
      rw [Bool.eq_iff_iff, beq_iff_eq, beq_iff_eq, eq_comm]
    · rw [if_neg hx, ih j hn]
      refine prune_congr _ _ j fun k _ => ?_
      rw [List.any_cons, decide_eq_false hx, Bool.and_false, Bool.false_or]

/-- **C200** With grids added, each item is kept, without the importance runs whose name without `_post` is that of an item of one of the grids, and without the runs made from
these; all others are kept. -/
theorem addGrids_spec (main : List Job) (subs : List (List Job)) (hn : ∀ j ∈ main ++ subs.flatten, ((K j).map Prod.fst).Nodup) :
    addGrids main (subs.map some) = .ok ((main ++ subs.flatten).map
      (prune fun k => decide (∃ j ∈ main ++ subs.flatten, replaceStr c!"_post" [] k.2.name = j.info.name))) := by
  unfold addGrids
  have hs : (subs.map some).mapM id = some subs := by
    rw [List.mapM_map]
    clear hn
    induction subs with
    | nil => rfl
    | cons s subs ih => rw [List.mapM_cons, ih]; rfl
  rw [hs]
  simp only
  congr 1
  refine List.map_congr_left fun j hj => ?_
  rw [replaceLoop_prune _ _ j (hn j hj)]
  refine prune_congr _ _ j fun k hk => ?_
  rw [Bool.eq_iff_iff, List.any_eq_true, decide_eq_true_eq]
  have hnd := hn j hj
  unfold K at hk
  obtain ⟨c, hc, rfl⟩ := List.mem_map.1 hk
  constructor
  · rintro ⟨x, hx, h⟩
    rw [Bool.and_eq_true, beq_iff_eq, decide_eq_true_eq, List.mem_map] at h
    obtain ⟨hu, y, hy, hyn⟩ := h
    have hxc : key x = key c := by
      refine List.inj_on_of_nodup_map hnd (List.mem_map.2 ⟨x, hx, rfl⟩) (List.mem_map.2 ⟨c, hc, rfl⟩) ?_
      exact hu
    refine ⟨y, hy, ?_⟩
    rw [← hxc]
    exact hyn.symm
  · rintro ⟨y, hy, hyn⟩
    refine ⟨c, hc, ?_⟩
    rw [Bool.and_eq_true, beq_iff_eq, decide_eq_true_eq, List.mem_map]
    exact ⟨rfl, y, hy, hyn.symm⟩

/-! ### reading spectra -/

section dump
variable {F : Type} [Field F]

theorem loadLoop_spec (isMatch : Str → Bool) (cl : Str → Except Err (List F × List F)) (cal : Str → Except Err F) (rescale : F) (maxFiles : Nat) (spec : Str → List F × List F) (k : Str → F)
    (fs : List Str) (hcl : ∀ f ∈ fs, isMatch f = true → cl f = .ok (spec f) ∧ cal f = .ok (k f)) (ls : Option (List F)) (ps : List Str) (cs : List (List F)) (hm : ps.length < maxFiles) :
    loadLoop isMatch cl cal rescale maxFiles fs ls ps cs =
      .ok (ls.or (((fs.filter isMatch).take (maxFiles - ps.length)).head?.map fun f => (spec f).1), ps ++ (fs.filter isMatch).take (maxFiles - ps.length),
        cs ++ ((fs.filter isMatch).take (maxFiles - ps.length)).map fun f => (spec f).2.map fun x => x / k f ^ 2 * rescale) := by
  induction fs generalizing ls ps cs with
  | nil => simp [loadLoop]
  | cons f fs ih =>
    have ih := ih fun f hf => hcl f (List.mem_cons_of_mem _ hf)
    rw [loadLoop]
    by_cases hf : isMatch f = true
    · obtain ⟨h1, h2⟩ := hcl f (List.mem_cons_self ..) hf
      rw [if_pos hf, h1]
      simp only
      rw [h2]
      simp only
      rw [List.filter_cons_of_pos hf]
      obtain ⟨d, hd⟩ : ∃ d, maxFiles - ps.length = d + 1 := ⟨maxFiles - ps.length - 1, by omega⟩
      rw [hd, List.take_succ_cons]
      have hor : ls.or (some (spec f).1) = some (ls.getD (spec f).1) := by cases ls <;> rfl
      by_cases hl : (ps ++ [f]).length = maxFiles
      · rw [if_pos hl]
        have : d = 0 := by
          rw [List.length_append, List.length_singleton] at hl
          omega
        subst this
        simp [hor]
      · rw [if_neg hl]
        rw [List.length_append, List.length_singleton] at hl
        rw [ih _ _ _ (by rw [List.length_append, List.length_singleton]; omega), List.length_append, List.length_singleton, show maxFiles - (ps.length + 1) = d by omega]
        simp [hor]
    · rw [if_neg hf, ih _ _ _ hm, List.filter_cons_of_neg hf]

theorem glob_any (q s : Str) : ParamNames.Glob ('?' :: q) s ↔ ∃ c t, s = c :: t ∧ ParamNames.Glob q t := by
  constructor
  · intro h
    generalize hz : '?' :: q = z at h
    cases h with
    | nil => simp at hz
    | star u h => simp at hz
    | any d h => simp at hz; subst hz; exact ⟨d, _, rfl, h⟩
    | lit _ h2 => simp at hz; exact absurd hz.1.symm h2
  · rintro ⟨c, t, rfl, ht⟩; exact .any c ht

/-- names of the files of a root: any one character and anything after an underscore each -/
theorem match_root (name f : Str) (h : GridFiles.Plain name) :
    ParamNames.fnmatchcase f (name ++ c!"_?_*" ++ c!".theory_cl") = true ↔ ∃ c u, f = name ++ c!"_" ++ [c] ++ c!"_" ++ u ++ c!".theory_cl" := by
  have hb : '[' ∉ name ++ c!"_?_*" ++ c!".theory_cl" := by
    simp only [List.mem_append, not_or]
    exact ⟨⟨GridFiles.plain_no_bracket h, by decide⟩, by decide⟩
  have e : name ++ c!"_?_*" ++ c!".theory_cl" = (name ++ c!"_") ++ ('?' :: (c!"_" ++ ('*' :: (c!".theory_cl" ++ [])))) := by
    rw [List.append_assoc, List.append_assoc]
    rfl
  rw [ParamNames.fnmatchcase_iff _ _ hb, e, GridFiles.glob_plain _ _ _ (GridFiles.plain_append h (by decide))]
  simp only [glob_any, GridFiles.glob_plain c!"_" _ _ (by decide), GridFiles.glob_star, GridFiles.glob_plain c!".theory_cl" _ _ (by decide), GridFiles.glob_nil]
  constructor
  · rintro ⟨_, rfl, c, _, rfl, _, rfl, u, _, rfl, _, rfl, rfl⟩
    exact ⟨c, u, by simp⟩
  · rintro ⟨c, u, rfl⟩
    exact ⟨c :: (c!"_" ++ (u ++ c!".theory_cl")), by simp, c, _, rfl, _, rfl, u, _, rfl, [], by simp, rfl⟩

/-- **C200** The spectra read are those of the first files with the root, as many as asked for, divided by the square of their calibration; multipoles are those of the first. -/
theorem loadFiles_spec (listdir : Str → Except Err (List Str)) (cl : Str → Except Err (List F × List F)) (cal : Str → Except Err F) (rescale : F) (maxFiles : Nat) (dir name : Str) (fs : List Str)
    (spec : Str → List F × List F) (k : Str → F) (hd : Path.Plain dir) (hn : '/' ∉ name) (hp : GridFiles.Plain name) (hl : listdir dir = .ok fs) (hm : 0 < maxFiles)
    (hcl : ∀ f ∈ fs, cl f = .ok (spec f) ∧ cal f = .ok (k f)) (p : Str → Bool) (hpat : ∀ f, p f = true ↔ ∃ c u, f = name ++ c!"_" ++ [c] ++ c!"_" ++ u ++ c!".theory_cl") (f0 : Str) (rest : List Str)
    (hne : (fs.filter p).take maxFiles = f0 :: rest) :
    loadFiles listdir cl cal rescale maxFiles (dir ++ c!"/" ++ name) =
      .ok ((spec f0).1, f0 :: rest, (f0 :: rest).map fun f => (spec f).2.map fun x => x / k f ^ 2 * rescale) := by
  have hpat0 : dir ++ c!"/" ++ name ++ c!"_?_*" = dir ++ '/' :: (name ++ c!"_?_*") := by
    rw [List.append_assoc, List.append_assoc]
    rfl
  have hslash : '/' ∉ name ++ c!"_?_*" := by
    rw [List.mem_append]
    rintro (h | h)
    · exact hn h
    · exact absurd h (by decide)
  have hmatch : (fun f => ParamNames.fnmatchcase f (Path.basename (dir ++ c!"/" ++ name ++ c!"_?_*") ++ c!".theory_cl")) = p := by
    funext f
    rw [hpat0, Path.basename_join hslash, Bool.eq_iff_iff, hpat, match_root name f hp]
  unfold loadFiles
  rw [hmatch, hpat0, Path.dirname_join hd hslash, hl]
  simp only
  rw [loadLoop_spec p cl cal rescale maxFiles spec k fs (fun f hf _ => hcl f hf) none [] [] hm]
  simp only [List.length_nil, Nat.sub_zero, List.nil_append, hne, List.head?_cons, Option.map_some, Option.or]

end dump

/-! ### examples -/

section examples

def exNames : List ParamNames.Info := [{ name := c!"ombh2" }, { name := c!"tau" }]
def exChain : List (List ℚ) := [[1, 50, 22 / 1000, 6 / 100], [2, 51, 23 / 1000, 7 / 100]]
def exChain2 : List (List ℚ) := [[1, 52, 21 / 1000, 5 / 100]]
def exLoad (f : Str) : Except Err (List (List ℚ)) := if f = c!"chains/test_1.txt" then .ok exChain else if f = c!"chains/test_2.txt" then .ok exChain2 else .error .file

example : peek id exLoad (fun _ => .ok exNames) [c!"chainPeek.py", c!"chains/test", c!"tau"] = .ok [6 / 100, 7 / 100] := by decide +kernel

def exCov : Cov.CovMat ℚ := { names := [c!"a", c!"b"], matrix := some (.mat [[4, 1], [1, 9]]), size := 2 }
def exFloat (s : Str) : Option ℚ := (intStr s).map fun n => (n : ℚ)

example : (covscale id exFloat (fun _ => [c!"x.covmat", c!"y.txt"]) (fun _ => .ok exCov) [c!"covscale.py", c!"in", c!"out", c!"b:a", c!"10:2"]) =
    .ok [(c!"out/x.covmat", { exCov with matrix := some (.mat [[16, 20], [20, 900]]) })] := by decide +kernel

def exTex (p : Str) : Except Err (Option (List Str)) := if p = c!"tau" then .ok (some [c!"0.06\\pm 0.01"]) else if p = c!"r" then .ok (some [c!"---"]) else .ok none

example : (margeParamTex [c!"tau", c!"r"] exTex id []).bind (printLatex false) =
    .ok [c!"tau                               0.06\\pm 0.01", c!"r                                 ---"] := by decide +kernel

example : (snippets c!"out" c!"chains/base_plik" c!"sig1" [(c!"tau", some (c!"\\tau", c!"0.06"))] []) = ([(c!"out/base_plik-tau_sig1.tex", c!"0.06")], none) := by decide +kernel

/-- an item of a grid -/
def it (params names : List Str) : Info := mkItem c!"/g/" params (mkData names none) c!"base"

def exVals (j : Info) : Option (Str → Option (List Str)) :=
  some fun p => if p ∈ j.params then some [(if j.data.names.length = 1 then c!"< 1" else c!"---"), c!"0.5"] else none

example : compareLines { params := [c!"mnu"], math := true, compare := some [c!"plik_BAO", c!"plik"] } exVals .ok
    [it [] [c!"plik"], it [c!"mnu"] [c!"plik"], it [c!"mnu"] [c!"plik", c!"BAO"], it [c!"mnu", c!"nnu"] [c!"plik"], it [c!"mnu"] [c!"lens"]] =
    .ok [c!"$mnu$ & $0.5$ & --- & $0.5$ & $< 1$\\cr", c!"$mnu$ & $0.5$ & $< 1$\\cr"] := by decide +kernel

example : runningJobs (some [(c!"base_plik", some c!" 0.012"), (c!"base_BAO", none)]) (some [⟨c!"job1", [c!"base_plik", c!"other"], c!"17 R"⟩, ⟨c!"job2", [c!"other"], c!"18 Q"⟩,
    ⟨c!"base_BAO", [c!"base_BAO"], c!"19 R"⟩]) = .ok [c!"17 R |        job1", c!"    >>   0.012 base_plik", c!"    >>         other", c!"19 R |        base_BAO"] := by decide +kernel

/-- an item with an importance run -/
def exJob (names imp : List Str) (u : Nat) : Job := .node (it [] names) u [.node { it [] (names ++ imp) with name := c!"base_" ++ join us names ++ c!"_post_" ++ join us imp } (u + 1) []]

example : (addGrids [exJob [c!"plik"] [c!"BAO"] 0, exJob [c!"CamSpec"] [c!"BAO"] 2] [some [.node (it [] [c!"plik", c!"BAO"]) 9 []]]).map (fun l => l.map fun j => (imps j).map fun x => x.info.name) =
    .ok [[], [c!"base_CamSpec_post_BAO"], []] := by decide +kernel

example : loadFiles (F := ℚ) (fun d => if d = c!"out" then .ok [c!"b_1_2.theory_cl", c!"b_1_2.pars", c!"b_2_1.theory_cl", c!"b_2_7.theory_cl"] else .error .file)
    (fun f => .ok ([2, 3], if f = c!"b_1_2.theory_cl" then [8, 4] else [6, 12])) (fun _ => .ok 2) 10 2 c!"out/b" =
    .ok ([2, 3], [c!"b_1_2.theory_cl", c!"b_2_1.theory_cl"], [[20, 10], [15, 30]]) := by decide +kernel

/-! ### not so (C201) -/

/-- the chain given is shown -/
def ChainGiven : Prop := ∀ (n : Nat) (d : List (List ℚ)), exLoad (c!"chains/test_" ++ strNat n ++ c!".txt") = .ok d →
  peek id exLoad (fun _ => .ok exNames) [c!"chainPeek.py", c!"chains/test", c!"tau", strNat n] = column 3 d

/-- The number of the chain is only used when another argument follows: chainPeek.py:19 counts one too many. -/
theorem peek_index_fails : ¬ ChainGiven := by
  intro h
  have := h 2 exChain2 (by decide +kernel)
  revert this
  decide +kernel

/-- With another argument the number is used. -/
theorem peek_index_partial {F : Type} (abs : Str → Str) (load : Str → Except Err (List (List F))) (names : Str → Except Err (List ParamNames.Info)) (prog root param n more : Str) (k : Nat)
    (ps : List ParamNames.Info) (d : List (List F)) (hk : intStr n = some k) (hn : names (abs root ++ c!".paramnames") = .ok ps) (hl : load (abs root ++ c!"_" ++ strNat k ++ c!".txt") = .ok d) :
    peek abs load names [prog, root, param, n, more] = column (ParamNames.numberOfName ps param + 2).toNat d := by
  unfold peek
  simp only [peekIndex, List.length_cons, List.length_nil]
  rw [if_pos (by omega)]
  simp only [List.getElem?_cons_succ, List.getElem?_cons_zero, Option.bind_some, hk]
  rw [hl]
  simp only
  rw [hn]

/-- a parameter that the chain does not have is an error -/
def UnknownIsError : Prop := ∀ (ps : List ParamNames.Info) (param : Str), (∀ p ∈ ps, p.name ≠ param) → ∃ e, peek id exLoad (fun _ => .ok ps) [c!"chainPeek.py", c!"chains/test", param] = .error e

/-- For a name that is not there the values of the likelihood are printed: `numberOfName` gives -1 (chainPeek.py:24). -/
theorem peek_unknown_fails : ¬ UnknownIsError := by
  intro h
  obtain ⟨e, he⟩ := h exNames c!"ns" (by decide +kernel)
  have : peek id exLoad (fun _ => .ok exNames) [c!"chainPeek.py", c!"chains/test", c!"ns"] = .ok [50, 51] := by decide +kernel
  rw [this] at he
  cases he

/-- too few arguments give the explanation -/
def UsageShown : Prop := ∀ argv : List Str, argv.length < 5 → covscale (K := ℚ) id exFloat (fun _ => []) (fun _ => .error .file) argv = .error .usage

/-- Without factors there is an error in place of the explanation: covscale.py:6 counts one too few. -/
theorem covscale_usage_fails : ¬ UsageShown := by
  intro h
  have := h [c!"covscale.py", c!"in", c!"out", c!"a"] (by decide)
  revert this
  decide +kernel

/-- each parameter has a factor -/
def FactorsMatch : Prop := ∀ ps fs : Str, (splitChar ':' ps).length ≠ (splitChar ':' fs).length →
  ∃ e, covscale (K := ℚ) id exFloat (fun _ => [c!"x.covmat"]) (fun _ => .ok exCov) [c!"covscale.py", c!"in", c!"out", ps, fs] = .error e

/-- With fewer factors than parameters the others are silently not scaled (covscale.py:23). -/
theorem covscale_zip_fails : ¬ FactorsMatch := by
  intro h
  obtain ⟨e, he⟩ := h c!"a:b" c!"10" (by decide +kernel)
  have : covscale (K := ℚ) id exFloat (fun _ => [c!"x.covmat"]) (fun _ => .ok exCov) [c!"covscale.py", c!"in", c!"out", c!"a:b", c!"10"] =
      .ok [(c!"out/x.covmat", { exCov with matrix := some (.mat [[400, 10], [10, 9]]) })] := by decide +kernel
  rw [this] at he
  cases he

/-- the matrix of one parameter can be scaled -/
def OneParameter : Prop := ∀ (name : Str) (x : ℚ) (c : Cov.CovMat ℚ), Cov.loadText (c!"# " ++ name ++ c!"\n 4\n") = .ok c → ∃ c', Cov.rescale c name x = .ok c'

/-- A file with one parameter is read as a number, which has no rows (covmat.py:39, 60). -/
theorem covscale_one_fails : ¬ OneParameter := by
  intro h
  obtain ⟨c', hc⟩ := h c!"a" 2 { names := [c!"a"], matrix := some (.scalar 4), size := 1 } (by decide +kernel)
  have : Cov.rescale (K := ℚ) { names := [c!"a"], matrix := some (.scalar 4), size := 1 } c!"a" 2 = .error .indexError := by decide +kernel
  rw [this] at hc
  cases hc

/-- what has been found can be printed -/
def FoundPrinted : Prop := ∀ (params : List Str) (l : List (Str × Option (Str × Str))) (tabular : Bool), margeParamTex [c!"tau"] exTex id params = .ok l → ∃ ls, printLatex tabular l = .ok ls

/-- A parameter that the file does not have is an error when printed: `None` has no width (makeLatex.py:22-23, 56-62). -/
theorem latex_unknown_fails : ¬ FoundPrinted := by
  intro h
  obtain ⟨ls, hl⟩ := h [c!"tau", c!"ns"] [(c!"tau", some (c!"tau", c!"0.06\\pm 0.01")), (c!"ns", none)] false (by decide +kernel)
  have : printLatex false [(c!"tau", some (c!"tau", c!"0.06\\pm 0.01")), (c!"ns", none)] = .error .type := by decide +kernel
  rw [this] at hl
  cases hl

/-- snippets that are not empty stay so -/
def SnippetsKept : Prop := ∀ (l : List (Str × Option (Str × Str))) (fs : Dict Str Str) (f t : Str), fs.get? f = some t → t ≠ [] →
  ((∀ p ∈ l, p.2.isNone) → (snippets c!"out" c!"base" c!"sig1" l fs).1.get? f = some t)

/-- For such a parameter an existing snippet is emptied before the error (makeLatex.py:34-35). -/
theorem snippet_unknown_fails : ¬ SnippetsKept := by
  intro h
  have := h [(c!"ns", none)] [(c!"out/base-ns_sig1.tex", c!"0.96")] c!"out/base-ns_sig1.tex" c!"0.96" (by decide +kernel) (by decide) (by simp)
  revert this
  decide +kernel

/-- different chains have different snippets -/
def SnippetsApart : Prop := ∀ (a b param tag : Str), '/' ∉ a → '/' ∉ b → a ≠ b → snippetName a param tag ≠ snippetName b param tag

/-- What follows a dot in the name of the chain is left out of the names of snippets: those of `base_nnu3.046` replace those of `base_nnu3.15` (makeLatex.py:29). -/
theorem snippet_dot_fails : ¬ SnippetsApart := by
  intro h
  exact h c!"base_nnu3.046" c!"base_nnu3.15" c!"tau" c!"sig1" (by decide) (by decide) (by decide) (by decide +kernel)

/-- a table can be written to the current directory -/
def WrittenHere : Prop := ∀ (isdir : Str → Bool) (f : Str), isdir [] = false → '/' ∉ f → ∃ g, writtenTo isdir f = .ok g

theorem written_here_never (isdir : Str → Bool) (f : Str) (h : isdir [] = false) (hf : '/' ∉ f) : writtenTo isdir f = .error .file := by
  unfold writtenTo
  have : Path.dirname (if contains c!"." f then f else f ++ c!".tex") = [] := by
    apply Path.dirname_bare
    split_ifs
    · exact hf
    · rw [List.mem_append]
      rintro (h | h)
      · exact hf h
      · exact absurd h (by decide)
  simp only [this, h, Bool.false_eq_true, if_false]

/-- A file name without directory is never written: there is no directory with an empty name, and none can be made (makeParamCompare.py:97). -/
theorem written_here_fails : ¬ WrittenHere := by
  intro h
  obtain ⟨g, hg⟩ := h (fun _ => false) c!"tab" rfl (by decide)
  rw [written_here_never _ _ rfl (by decide)] at hg
  cases hg

/-- a directory is made for the table -/
def DirectoryMade : Prop := ∀ (isdir : Str → Bool) (f : Str), ∃ g, writtenTo isdir f = .ok g

/-- A directory that does not exist is not made, only the one it is in (makeParamCompare.py:97). -/
theorem directory_made_fails : ¬ DirectoryMade := by
  intro h
  obtain ⟨g, hg⟩ := h (fun d => d = c!"out") c!"out/new/tab"
  have : writtenTo (fun d => d = c!"out") c!"out/new/tab" = .error .file := by decide +kernel
  rw [this] at hg
  cases hg

/-- the extension is added if there is none -/
def ExtensionAdded : Prop := ∀ (isdir : Str → Bool) (f g : Str), writtenTo isdir f = .ok g → '.' ∉ Path.basename f → endsWith c!".tex" g = true

/-- It is not if the directory has a dot (makeParamCompare.py:95). -/
theorem extension_added_fails : ¬ ExtensionAdded := by
  intro h
  have := h (fun _ => true) c!"./tab" c!"./tab" (by decide +kernel) (by decide +kernel)
  revert this
  decide +kernel

/-- the line of a parameter has its values only -/
def OwnValues : Prop := ∀ (a : CArgs) (items : List Info) (l : List Str), compareLines a exVals .ok items = .ok l → ∀ p ∈ a.params, ∃ l', compareLines { a with params := [p] } exVals .ok items = .ok l' ∧ ∀ x ∈ l', x ∈ l

/-- With several parameters each line has the values of all of them (makeParamCompare.py:86). -/
theorem own_values_fails : ¬ OwnValues := by
  intro h
  obtain ⟨l', h1, h2⟩ := h { params := [c!"mnu", c!"nnu"] } [it [c!"mnu", c!"nnu"] [c!"plik"]] [c!"mnu & 0.5 & < 1 & 0.5 & < 1\\cr", c!"nnu & 0.5 & < 1 & 0.5 & < 1\\cr"] (by decide +kernel) c!"mnu"
    (by simp)
  have h3 : compareLines { params := [c!"mnu"] } exVals .ok [it [c!"mnu", c!"nnu"] [c!"plik"]] = .ok [c!"mnu & 0.5 & < 1\\cr"] := by decide +kernel
  have h4 : l' = [c!"mnu & 0.5 & < 1\\cr"] := by
    have := h1.symm.trans h3
    exact Except.ok.inj this
  subst h4
  have := h2 _ (List.mem_singleton_self _)
  revert this
  decide +kernel

/-- For one parameter the line has its values only. -/
theorem own_values_partial (a : CArgs) (p : Str) (hp : a.params = [p]) (tex : Info → Option (Str → Option (List Str))) (label : Str → Except Err Str) (lab : Str → Str) (items : List Info)
    (hl : label p = .ok (lab p)) (ht : ∀ j t p v, tex j = some t → t p = some v → v ≠ []) :
    compareLines a tex label items = .ok ((firsts ((allVals a tex items).map (·.paramtag))).map fun pt =>
      join c!" & " (mathText a (lab p) :: (dataOrder a (allVals a tex items) pt).flatMap fun d =>
        match lastVal (allVals a tex items) pt d p with | none => [] | some v => shownVal a v) ++ a.endline) := by
  rw [compare_spec a tex label lab items (by rw [hp]; simpa using hl) ht]
  have hall : ((allVals a tex items).filter fun v => v.par = p) = allVals a tex items := by
    rw [List.filter_eq_self]
    intro v hv
    unfold allVals at hv
    rw [List.mem_flatMap] at hv
    obtain ⟨j, -, hj⟩ := hv
    unfold itemVals at hj
    cases h : tex j with
    | none => rw [h] at hj; cases hj
    | some t =>
      rw [h, hp] at hj
      simp only [List.mem_filterMap, List.mem_singleton, Option.map_eq_some_iff] at hj
      obtain ⟨q, rfl, u, -, rfl⟩ := hj
      simp
  rw [hp]
  simp only [List.flatMap_cons, List.flatMap_nil, List.append_nil, hall]

/-- without a grid all jobs are shown -/
def AllShown : Prop := ∀ q : List QJob, ∃ ls, runningJobs none (some q) = .ok ls ∧ ∀ j ∈ q, ∃ l ∈ ls, ∃ r, l = j.info ++ c!" | " ++ r

/-- Without a grid, which is optional, no job is shown (runningJobs.py:19, 24). -/
theorem all_shown_fails : ¬ AllShown := by
  intro h
  obtain ⟨ls, h1, h2⟩ := h [⟨c!"job", [c!"base"], c!"17 R"⟩]
  have : runningJobs none (some [⟨c!"job", [c!"base"], c!"17 R"⟩]) = .ok [] := by decide +kernel
  rw [this] at h1
  obtain ⟨l, hl, -⟩ := h2 _ (List.mem_singleton_self _)
  rw [← Except.ok.inj h1] at hl
  cases hl

/-- when there is no list of jobs nothing is shown -/
def NoJobs : Prop := ∀ items, runningJobs items none = .ok []

/-- When there is no list of jobs there is an error: an empty list cannot be taken apart (runningJobs.py:21-22, jobqueue.py:329-331). -/
theorem no_jobs_fails : ¬ NoJobs := by
  intro h
  have := h none
  revert this
  decide +kernel

/-- importance runs with the data of an item are replaced -/
def SameData : Prop := ∀ (main sub : List Job) (l : List Job), addGrids main [some sub] = .ok l → ∀ j ∈ l, ∀ x ∈ imps j, ∀ y ∈ sub, x.info.normedName ≠ y.info.normedName

/-- Importance runs are found by names in which data have another order (addGridBatch.py:22), and kept when the item with the same data has them so. -/
theorem same_data_fails : ¬ SameData := by
  intro h
  have h1 : ∃ l, addGrids [exJob [c!"plik"] [c!"BAO"] 0] [some [.node (it [] [c!"BAO", c!"plik"]) 9 []]] = .ok l := ⟨_, rfl⟩
  obtain ⟨l, hl⟩ := h1
  have h2 : l = [exJob [c!"plik"] [c!"BAO"] 0, .node (it [] [c!"BAO", c!"plik"]) 9 []] := by
    have : addGrids [exJob [c!"plik"] [c!"BAO"] 0] [some [.node (it [] [c!"BAO", c!"plik"]) 9 []]] = .ok [exJob [c!"plik"] [c!"BAO"] 0, .node (it [] [c!"BAO", c!"plik"]) 9 []] := by rfl
    exact Except.ok.inj (hl.symm.trans this)
  subst h2
  refine h _ _ _ hl (exJob [c!"plik"] [c!"BAO"] 0) (List.mem_cons_self ..) _ (List.mem_cons_self ..) (.node (it [] [c!"BAO", c!"plik"]) 9 []) (List.mem_singleton_self _) ?_
  decide +kernel

/-- directories that are no grids are left out -/
def NoGridLeftOut : Prop := ∀ (main : List Job) (subs : List (Option (List Job))), ∃ l, addGrids main subs = .ok l

/-- A directory that is no grid is added as `None`, and everything fails (addGridBatch.py:15-18). -/
theorem no_grid_fails : ¬ NoGridLeftOut := by
  intro h
  obtain ⟨l, hl⟩ := h [] [none]
  have : addGrids [] [none] = .error .attr := rfl
  rw [this] at hl
  cases hl

/-- spectra in the current directory can be read -/
def ReadHere : Prop := ∀ (listdir : Str → Except Err (List Str)) (name : Str), '/' ∉ name → listdir c!"." = .ok [name ++ c!"_1_1.theory_cl"] → listdir [] = .error .file →
  ∃ r, loadFiles (F := ℚ) listdir (fun _ => .ok ([2], [1])) (fun _ => .ok 1) 1 400 name = .ok r

/-- A root without directory fails: `os.listdir('')` does (chainDumpPlot.py:23, 27). -/
theorem read_here_fails : ¬ ReadHere := by
  intro h
  obtain ⟨r, hr⟩ := h (fun d => if d = c!"." then .ok [c!"b_1_1.theory_cl"] else .error .file) c!"b" (by decide) rfl rfl
  have : loadFiles (F := ℚ) (fun d => if d = c!"." then .ok [c!"b_1_1.theory_cl"] else .error .file) (fun _ => .ok ([2], [1])) (fun _ => .ok 1) 1 400 c!"b" = .error .file := by rfl
  rw [this] at hr
  cases hr

end examples

end Verif.Scripts
