import Verif.Model.TablePng
import Mathlib.Tactic.Push

/-!
# Pictures of tables (C261, C262)
-/

namespace Verif.TablePng
open Verif.Py

/-- the temporary files -/
def Temp (base p : Str) : Prop := p = base ++ c!".tex" ∨ p = base ++ c!".dvi" ∨ p = base ++ c!".aux" ∨ p = base ++ c!".log"

/-- the temporary name is new -/
def Fresh (base : Str) (fs : FS) : Prop := ∀ p, Temp base p ∨ p = base ++ c!".png" → fs p = none

theorem tidy_spec (base : Str) (fs : FS) (p : Str) : (Temp base p → tidy base fs p = none) ∧ (¬ Temp base p → tidy base fs p = fs p) := by
  unfold tidy remove Temp
  simp only [List.foldl_cons, List.foldl_nil]
  constructor
  · rintro (h | h | h | h) <;> subst h <;> simp only [if_true, ite_self]
  · intro h
    push Not at h
    rw [if_neg h.2.2.2, if_neg h.2.2.1, if_neg h.2.1, if_neg h.1]

theorem latex_spec (t : Tools) (base text : Str) (fs : FS) (p : Str) (h : ¬ Temp base p) : runLatex t base text (write fs (base ++ c!".tex") text) p = fs p := by
  unfold Temp at h
  push Not at h
  unfold runLatex
  cases t.latex text with
  | none => unfold write; dsimp only; rw [if_neg h.1]
  | some d => unfold write; dsimp only; rw [if_neg h.2.1, if_neg h.2.2.2, if_neg h.2.2.1, if_neg h.1]

theorem latex_dvi (t : Tools) (base text : Str) (fs : FS) (hf : Fresh base fs) :
    runLatex t base text (write fs (base ++ c!".tex") text) (base ++ c!".dvi") = t.latex text := by
  unfold runLatex
  cases t.latex text with
  | none =>
    unfold write
    dsimp only
    rw [if_neg (fun h => absurd (List.append_cancel_left h) (by decide))]
    exact hf _ (.inl (.inr (.inl rfl)))
  | some d => unfold write; dsimp only; rw [if_pos rfl]

/-- the picture of a document, if the programs make one -/
def picture (t : Tools) (dpi : Option Nat) (text : Str) : Option Str := (t.latex text).bind (t.dvipng dpi)

/-- the files before the end -/
def files (t : Tools) (dpi : Option Nat) (text base out : Str) (fs : FS) : FS :=
  tidy base (runPng t dpi base (Path.dirname (base ++ c!".tex")) out (runLatex t base text (write fs (base ++ c!".tex") text)))

theorem files_spec (t : Tools) (dpi : Option Nat) (text base out : Str) (fs : FS) (hf : Fresh base fs) (p : Str) :
    (Temp base p → files t dpi text base out fs p = none) ∧
    (¬ Temp base p → p ≠ Path.join (Path.dirname (base ++ c!".tex")) out → files t dpi text base out fs p = fs p) ∧
    (¬ Temp base p → p = Path.join (Path.dirname (base ++ c!".tex")) out →
      files t dpi text base out fs p = (match picture t dpi text with | some i => some i | none => fs p)) := by
  unfold files
  refine ⟨(tidy_spec base _ p).1, ?_, ?_⟩
  · intro h hp
    rw [(tidy_spec base _ p).2 h]
    unfold runPng
    cases runLatex t base text (write fs (base ++ c!".tex") text) (base ++ c!".dvi") with
    | none => exact latex_spec t base text fs p h
    | some d =>
      dsimp only
      cases t.dvipng dpi d with
      | none => exact latex_spec t base text fs p h
      | some i =>
        show write _ _ _ p = _
        unfold write
        rw [if_neg hp]
        exact latex_spec t base text fs p h
  · intro h hp
    rw [(tidy_spec base _ p).2 h]
    unfold runPng picture
    rw [latex_dvi t base text fs hf]
    cases t.latex text with
    | none => exact latex_spec t base text fs p h
    | some d =>
      dsimp only [Option.bind_some]
      cases t.dvipng dpi d with
      | none => exact latex_spec t base text fs p h
      | some i => show write _ _ _ p = _; unfold write; rw [if_pos hp]

theorem run_eq (t : Tools) (dpi : Option Nat) (text base : Str) (filename : Option Str) (st : St) :
    tablePNG t dpi text base filename false st = (⟨files t dpi text base (outfile base filename) st.fs, st.cwd⟩, .ok (.name (outfile base filename))) := rfl

theorem run_bytes (t : Tools) (dpi : Option Nat) (text base : Str) (filename : Option Str) (st : St) :
    tablePNG t dpi text base filename true st = (match files t dpi text base (outfile base filename) st.fs (Path.join st.cwd (outfile base filename)) with
      | none => (⟨files t dpi text base (outfile base filename) st.fs, st.cwd⟩, .error .notFound)
      | some d => (⟨remove (files t dpi text base (outfile base filename) st.fs) (Path.join st.cwd (outfile base filename)), st.cwd⟩, .ok (.data d))) := rfl

/-- **C261**: whatever happens, the working directory is that of before, the temporary files are gone, and no other file than that of the picture is
changed -/
theorem tidy_end (t : Tools) (dpi : Option Nat) (text base : Str) (filename : Option Str) (bytesIO : Bool) (st : St) (hf : Fresh base st.fs) :
    (tablePNG t dpi text base filename bytesIO st).1.cwd = st.cwd ∧
    (∀ p, Temp base p → (tablePNG t dpi text base filename bytesIO st).1.fs p = none) ∧
    (∀ p, ¬ Temp base p → p ≠ Path.join (Path.dirname (base ++ c!".tex")) (outfile base filename) →
      (bytesIO = true → p ≠ Path.join st.cwd (outfile base filename)) → (tablePNG t dpi text base filename bytesIO st).1.fs p = st.fs p) := by
  cases bytesIO with
  | false =>
    rw [run_eq]
    exact ⟨rfl, fun p hp => (files_spec t dpi text base _ st.fs hf p).1 hp, fun p hp h1 _ => (files_spec t dpi text base _ st.fs hf p).2.1 hp h1⟩
  | true =>
    rw [run_bytes]
    split
    · exact ⟨rfl, fun p hp => (files_spec t dpi text base _ st.fs hf p).1 hp, fun p hp h1 _ => (files_spec t dpi text base _ st.fs hf p).2.1 hp h1⟩
    · refine ⟨rfl, ?_, ?_⟩
      · intro p hp
        show remove _ _ p = none
        unfold remove
        split
        · rfl
        · exact (files_spec t dpi text base _ st.fs hf p).1 hp
      · intro p hp h1 h2
        show remove _ _ p = _
        unfold remove
        rw [if_neg (h2 rfl)]
        exact (files_spec t dpi text base _ st.fs hf p).2.1 hp h1

theorem join_abs (d p : Str) (h : startsWith ['/'] p = true) : Path.join d p = p := by
  unfold Path.join
  rw [if_pos h]

/-- **C261**: with an absolute name, or none, the picture is in the file that is named, or is what is returned, and then no file is left -/
theorem picture_spec (t : Tools) (dpi : Option Nat) (text base img : Str) (filename : Option Str) (st : St) (hf : Fresh base st.fs)
    (hp : picture t dpi text = some img) (ha : startsWith ['/'] (outfile base filename) = true) (hn : ¬ Temp base (outfile base filename)) :
    ((tablePNG t dpi text base filename false st).2 = .ok (.name (outfile base filename)) ∧
      (tablePNG t dpi text base filename false st).1.fs (outfile base filename) = some img) ∧
    ((tablePNG t dpi text base filename true st).2 = .ok (.data img) ∧ (tablePNG t dpi text base filename true st).1.fs (outfile base filename) = none) := by
  have h := (files_spec t dpi text base (outfile base filename) st.fs hf (outfile base filename)).2.2 hn (join_abs _ _ ha).symm
  rw [hp] at h
  dsimp only at h
  rw [run_eq, run_bytes, join_abs _ _ ha, h]
  refine ⟨⟨rfl, h⟩, rfl, ?_⟩
  show remove _ _ _ = none
  unfold remove
  rw [if_pos rfl]

/-- **C261**: the file without a name is beside the temporary ones and is not removed with them -/
theorem default_name (base : Str) : outfile base none = base ++ c!".png" ∧ outfile base (some []) = base ++ c!".png" ∧ ¬ Temp base (outfile base none) ∧
    (∀ f, f ≠ [] → outfile base (some f) = f) := by
  refine ⟨rfl, rfl, ?_, ?_⟩
  · rintro (h | h | h | h) <;> exact absurd (List.append_cancel_left h) (by decide)
  · intro f hf
    unfold outfile
    dsimp only
    rw [if_neg hf]

/-- programs that work -/
def tools : Tools := ⟨fun s => some (c!"dvi:" ++ s), fun _ s => some (c!"png:" ++ s)⟩

example : (tablePNG tools none c!"T" c!"/tmp/x1" none true ⟨fun _ => none, c!"/home/me"⟩).2 = .ok (.data c!"png:dvi:T") ∧
    (tablePNG tools none c!"T" c!"/tmp/x1" (some c!"/home/me/t.png") false ⟨fun _ => none, c!"/home/me"⟩).1.fs c!"/home/me/t.png" = some c!"png:dvi:T" ∧
    (tablePNG tools none c!"T" c!"/tmp/x1" none false ⟨fun _ => none, c!"/home/me"⟩).1.fs c!"/tmp/x1.dvi" = none := by decide +kernel

/-! ## What is not so -/

/-- **C262 fails**: with a name relative to the working directory the picture is written in the directory of temporary files; the file that is named
is not written, and what was in it before is returned, and removed, as the picture (types.py:433, 441, 446-447, 454-457) -/
theorem relative_fails (t : Tools) (dpi : Option Nat) (text base f : Str) (st : St) (hf : Fresh base st.fs) (hne : f ≠ [])
    (hj : Path.join st.cwd f ≠ Path.join (Path.dirname (base ++ c!".tex")) f) (hn : ¬ Temp base (Path.join st.cwd f)) :
    ((tablePNG t dpi text base (some f) false st).2 = .ok (.name f) ∧ (tablePNG t dpi text base (some f) false st).1.fs (Path.join st.cwd f) = st.fs (Path.join st.cwd f)) ∧
    (tablePNG t dpi text base (some f) true st).2 = (match st.fs (Path.join st.cwd f) with | some d => .ok (.data d) | none => .error .notFound) ∧
    (tablePNG t dpi text base (some f) true st).1.fs (Path.join st.cwd f) = none := by
  have ho := (default_name base).2.2.2 f hne
  have h := (files_spec t dpi text base f st.fs hf (Path.join st.cwd f)).2.1 hn hj
  rw [run_eq, run_bytes, ho, h]
  refine ⟨⟨rfl, h⟩, ?_⟩
  cases hs : st.fs (Path.join st.cwd f) with
  | none => exact ⟨rfl, by dsimp only; rw [h, hs]⟩
  | some d =>
    refine ⟨rfl, ?_⟩
    show remove _ _ _ = none
    unfold remove
    rw [if_pos rfl]

example : (tablePNG tools none c!"T" c!"/tmp/x1" (some c!"t.png") false ⟨fun _ => none, c!"/home/me"⟩).2 = .ok (.name c!"t.png") ∧
    (tablePNG tools none c!"T" c!"/tmp/x1" (some c!"t.png") false ⟨fun _ => none, c!"/home/me"⟩).1.fs c!"/home/me/t.png" = none ∧
    (tablePNG tools none c!"T" c!"/tmp/x1" (some c!"t.png") false ⟨fun _ => none, c!"/home/me"⟩).1.fs c!"/tmp/t.png" = some c!"png:dvi:T" := by decide +kernel

/-- **C262 fails**: if a program is missing or fails there is no error: the name of a file is returned that was not written, or, with `bytesIO`, an
older file is returned as the picture (types.py:437-439, 454-461) -/
theorem no_latex_fails (t : Tools) (dpi : Option Nat) (text base : Str) (filename : Option Str) (st : St) (hf : Fresh base st.fs)
    (hp : picture t dpi text = none) (ha : startsWith ['/'] (outfile base filename) = true) (hn : ¬ Temp base (outfile base filename)) :
    ((tablePNG t dpi text base filename false st).2 = .ok (.name (outfile base filename)) ∧
      (tablePNG t dpi text base filename false st).1.fs (outfile base filename) = st.fs (outfile base filename)) ∧
    (∀ d, st.fs (outfile base filename) = some d → (tablePNG t dpi text base filename true st).2 = .ok (.data d)) := by
  have h := (files_spec t dpi text base (outfile base filename) st.fs hf (outfile base filename)).2.2 hn (join_abs _ _ ha).symm
  rw [hp] at h
  dsimp only at h
  rw [run_eq, run_bytes, join_abs _ _ ha, h]
  refine ⟨⟨rfl, h⟩, ?_⟩
  intro d hd
  rw [hd]

example : (tablePNG ⟨fun _ => none, fun _ _ => none⟩ none c!"T" c!"/tmp/x1" none false ⟨fun _ => none, c!"/home/me"⟩).2 = .ok (.name c!"/tmp/x1.png") ∧
    (tablePNG ⟨fun _ => none, fun _ _ => none⟩ none c!"T" c!"/tmp/x1" none false ⟨fun _ => none, c!"/home/me"⟩).1.fs c!"/tmp/x1.png" = none := by decide +kernel

/-- **C262**: without a name a missing picture is an error with `bytesIO`, and one that is made is returned (missing: names of files) -/
theorem bytes_partial (t : Tools) (dpi : Option Nat) (text base : Str) (st : St) (hf : Fresh base st.fs) (ha : startsWith ['/'] base = true) :
    (tablePNG t dpi text base none true st).2 = (match picture t dpi text with | some i => .ok (.data i) | none => .error .notFound) := by
  have hj : startsWith ['/'] (outfile base none) = true := by
    obtain ⟨u, hu⟩ := List.isPrefixOf_iff_prefix.mp ha
    exact List.isPrefixOf_iff_prefix.mpr ⟨u ++ c!".png", by rw [← List.append_assoc, hu]; rfl⟩
  have h := (files_spec t dpi text base (outfile base none) st.fs hf (outfile base none)).2.2 (default_name base).2.2.1 (join_abs _ _ hj).symm
  rw [run_bytes, join_abs _ _ hj, h]
  cases hp : picture t dpi text with
  | some i => rfl
  | none =>
    dsimp only
    rw [show st.fs (outfile base none) = none from hf _ (.inr rfl)]

example : (tablePNG ⟨fun _ => none, fun _ _ => none⟩ none c!"T" c!"/tmp/x1" none true ⟨fun _ => none, c!"/home/me"⟩).2 = .error .notFound := by decide +kernel

end Verif.TablePng
