import Verif.Props.Rename
import Verif.Model.SampleDict

/-!
# Theorems added after changed models went unnoticed: best fit files, parameter vectors
-/

namespace Verif.Rename
open Verif.Py Verif.ParamNames

/-- the line after renaming -/
def MinLine.renamed (m : Mapper) (labels : List Info) (l : MinLine) : MinLine := { l with
  name := nameOf m l.name
  gap := if (m.get? l.name).isSome then List.replicate (l.gap.length + l.name.length - (nameOf m l.name).length) ' ' else l.gap
  label := (newLabel m labels l.name).getD l.label }

/-- the line changes -/
def MinLine.Changes (m : Mapper) (labels : List Info) (l : MinLine) : Prop :=
  nameOf m l.name ≠ l.name ∨ (newLabel m labels l.name).getD l.label ≠ l.label

theorem minLine_stop (m : Mapper) (labels : List Info) (line s0 c : Str) (h0 : Blank s0) (hl : rstrip line = s0 ++ (c!"-log(Like)" ++ c))
    (hc : ∀ x, c.head? = some x → isWs x = true) : minLine m labels line = .ok .stop := by
  unfold minLine
  rw [hl, resplit_step 3 h0 (⟨by decide, by decide⟩ : Token c!"-log(Like)") hc]
  dsimp only
  rw [if_pos rfl]

theorem minLoop_lines (m : Mapper) (labels : List Info) (st : Str) (rest : List Str) (hst : minLine m labels st = .ok .stop) :
    ∀ (ls : List (MinLine × Str)), (∀ e ∈ ls, e.1.OK ∧ Blank e.2) →
    ∃ b, minLoop m labels (ls.map (fun e => e.1.text ++ e.2) ++ st :: rest) =
        .ok (ls.map (fun e => (e.1.renamed m labels).text ++ ['\n']) ++ st :: rest, b) ∧ (b = true ↔ ∃ e ∈ ls, e.1.Changes m labels)
  | [], _ => ⟨false, by simp only [List.map_nil, List.nil_append]; unfold minLoop; rw [hst], by simp⟩
  | e :: ls, h => by
    obtain ⟨b, hb, hbi⟩ := minLoop_lines m labels st rest hst ls (fun x hx => h x (List.mem_cons_of_mem _ hx))
    obtain ⟨ok, bl⟩ := h e (List.mem_cons_self ..)
    obtain ⟨b1, h1, h1i⟩ := minLine_spec m labels e.1 ok e.2 bl
    refine ⟨b1 || b, ?_, ?_⟩
    · simp only [List.map_cons, List.cons_append]
      unfold minLoop
      rw [h1]
      dsimp only
      rw [hb]
      rfl
    · rw [Bool.or_eq_true, h1i, hbi]
      constructor
      · rintro (x | ⟨y, hy, hc⟩)
        · exact ⟨e, List.mem_cons_self .., x⟩
        · exact ⟨y, List.mem_cons_of_mem _ hy, hc⟩
      · rintro ⟨y, hy, hc⟩
        rcases List.mem_cons.mp hy with rfl | hy
        · exact .inl hc
        · exact .inr ⟨y, hy, hc⟩

/-- **A best fit file**: the three lines at the top stay, each parameter line gets its new name and label, everything from the likelihoods on stays;
the file counts as changed exactly if one of the lines has a new name or label. -/
theorem minimum_spec (m : Mapper) (labels : List Info) (a b c : Str) (ls : List (MinLine × Str)) (h : ∀ e ∈ ls, e.1.OK ∧ Blank e.2)
    (st : Str) (rest : List Str) (hst : minLine m labels st = .ok .stop) :
    ∃ x, minimum m labels (a :: b :: c :: (ls.map (fun e => e.1.text ++ e.2) ++ st :: rest)) =
        .ok (a :: b :: c :: (ls.map (fun e => (e.1.renamed m labels).text ++ ['\n']) ++ st :: rest), x) ∧
      (x = true ↔ ∃ e ∈ ls, e.1.Changes m labels) := by
  obtain ⟨x, hx, hi⟩ := minLoop_lines m labels st rest hst ls h
  refine ⟨x, ?_, hi⟩
  unfold minimum
  simp only [List.drop_succ_cons, List.drop_zero, hx, List.take_succ_cons, List.take_zero, List.cons_append, List.nil_append]

theorem minLoop_lines_end (m : Mapper) (labels : List Info) :
    ∀ (ls : List (MinLine × Str)), (∀ e ∈ ls, e.1.OK ∧ Blank e.2) →
    ∃ b, minLoop m labels (ls.map (fun e => e.1.text ++ e.2)) =
        .ok (ls.map (fun e => (e.1.renamed m labels).text ++ ['\n']), b) ∧ (b = true ↔ ∃ e ∈ ls, e.1.Changes m labels)
  | [], _ => ⟨false, rfl, by simp⟩
  | e :: ls, h => by
    obtain ⟨b, hb, hbi⟩ := minLoop_lines_end m labels ls (fun x hx => h x (List.mem_cons_of_mem _ hx))
    obtain ⟨ok, bl⟩ := h e (List.mem_cons_self ..)
    obtain ⟨b1, h1, h1i⟩ := minLine_spec m labels e.1 ok e.2 bl
    refine ⟨b1 || b, ?_, ?_⟩
    · simp only [List.map_cons]
      unfold minLoop
      rw [h1]
      dsimp only
      rw [hb]
      rfl
    · rw [Bool.or_eq_true, h1i, hbi]
      constructor
      · rintro (x | ⟨y, hy, hc⟩)
        · exact ⟨e, List.mem_cons_self .., x⟩
        · exact ⟨y, List.mem_cons_of_mem _ hy, hc⟩
      · rintro ⟨y, hy, hc⟩
        rcases List.mem_cons.mp hy with rfl | hy
        · exact .inl hc
        · exact .inr ⟨y, hy, hc⟩

/-- the same for a file that ends after the parameters -/
theorem minimum_end (m : Mapper) (labels : List Info) (a b c : Str) (ls : List (MinLine × Str)) (h : ∀ e ∈ ls, e.1.OK ∧ Blank e.2) :
    ∃ x, minimum m labels (a :: b :: c :: ls.map (fun e => e.1.text ++ e.2)) =
        .ok (a :: b :: c :: ls.map (fun e => (e.1.renamed m labels).text ++ ['\n']), x) ∧
      (x = true ↔ ∃ e ∈ ls, e.1.Changes m labels) := by
  obtain ⟨x, hx, hi⟩ := minLoop_lines_end m labels ls h
  refine ⟨x, ?_, hi⟩
  unfold minimum
  simp only [List.drop_succ_cons, List.drop_zero, hx, List.take_succ_cons, List.take_zero, List.cons_append, List.nil_append]

/-- Only with `--confirm` a best fit file to be changed stops the script. -/
theorem minStep_spec (m : Mapper) (labels : List Info) (confirm : Bool) (fs : FS) (root t : Str) (ht : fs (minFile root) = some t)
    (r : List Str × Bool) (hm : minimum m labels (fileIter t) = .ok r) :
    minStep m labels confirm fs root = if r.2 = true ∧ confirm = true then some .io else none := by
  unfold minStep
  rw [ht]
  dsimp only
  rw [hm]
  dsimp only
  cases r.2 <;> cases confirm <;> rfl

example : minimum [(c!"h", (c!"H0", none))] [] [c!"a\n", c!"b\n", c!"\n", c!" 1 0.7 h    H\n", c!" -log(Like) 3\n", c!" 2 0.8 h  x\n"] =
    .ok ([c!"a\n", c!"b\n", c!"\n", c!" 1 0.7 H0   H\n", c!" -log(Like) 3\n", c!" 2 0.8 h  x\n"], true) := by decide

end Verif.Rename

namespace Verif.SampleDict
open Verif.Py

/-- `samples['weight']` and `samples['loglike']` are weights and likelihoods unless parameters have these names; other names that are no
parameters are errors. -/
theorem paramVec_reserved {K : Type} (s : Samps K) (name : Str) (hn : ∀ p ∈ (s.names.map (·.name)).zip s.cols, p.1 ≠ name) :
    (name = c!"weight" → paramVec s name = .ok s.weights) ∧
    (name = c!"loglike" → ∀ l, s.loglikes = some l → paramVec s name = .ok l) ∧
    (name ≠ c!"weight" → name ≠ c!"loglike" → paramVec s name = .error (.param name)) := by
  have hf : ((s.names.map (·.name)).zip s.cols).reverse.find? (fun p => p.1 = name) = none := by
    rw [List.find?_eq_none]
    intro p hp
    have := hn p (List.mem_reverse.mp hp)
    simpa using this
  unfold paramVec
  rw [hf]
  dsimp only
  refine ⟨fun e => if_pos e, fun e l hl => ?_, fun e1 e2 => ?_⟩
  · rw [if_neg (by rw [e]; decide), if_pos e, hl]
  · rw [if_neg e1, if_neg e2]

/-- A name of a parameter gives its samples, also if it is `weight`; of several columns of one name the last one. -/
theorem paramVec_last {K : Type} (s : Samps K) (a b : List (Str × List K)) (name : Str) (v : List K)
    (h : (s.names.map (·.name)).zip s.cols = a ++ (name, v) :: b) (hb : ∀ p ∈ b, p.1 ≠ name) : paramVec s name = .ok v := by
  have hf : ((s.names.map (·.name)).zip s.cols).reverse.find? (fun p => p.1 = name) = some (name, v) := by
    rw [h, List.reverse_append, List.reverse_cons, List.append_assoc, List.find?_append]
    have : b.reverse.find? (fun p => decide (p.1 = name)) = none := by
      rw [List.find?_eq_none]
      intro p hp
      simpa using hb p (List.mem_reverse.mp hp)
    rw [this]
    simp
  unfold paramVec
  rw [hf]

end Verif.SampleDict
