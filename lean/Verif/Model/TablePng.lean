import Verif.Py.Path

/-!
# Model of pictures of tables (`ResultTable.tablePNG`, `python/getdist/types.py:420-461`)

The file system maps absolute paths to contents.  LaTeX and dvipng are parameters: what they make of a text and of a device independent file, if they
make anything.  Simplified: the temporary name has no dot but that of `.tex`; LaTeX leaves empty `.aux` and `.log` files; paths need no quoting;
paths are not normalised.
-/

namespace Verif.TablePng
open Verif.Py

inductive Err
  | notFound   -- FileNotFoundError
deriving DecidableEq, Repr

abbrev FS := Str → Option Str

def write (fs : FS) (p c : Str) : FS := fun q => if q = p then some c else fs q
def remove (fs : FS) (p : Str) : FS := fun q => if q = p then none else fs q

/-- files and the working directory -/
structure St where
  fs : FS
  cwd : Str

inductive Result
  | name (f : Str)
  | data (d : Str)
deriving DecidableEq, Repr

/-- the programs -/
structure Tools where
  latex : Str → Option Str
  dvipng : Option Nat → Str → Option Str

/-- `outfile` (types.py:433) -/
def outfile (base : Str) (filename : Option Str) : Str :=
  match filename with
  | none => base ++ c!".png"
  | some f => if f = [] then base ++ c!".png" else f

/-- after `latex` (types.py:442) -/
def runLatex (t : Tools) (base text : Str) (fs : FS) : FS :=
  match t.latex text with
  | none => fs
  | some dvi => write (write (write fs (base ++ c!".aux") []) (base ++ c!".log") []) (base ++ c!".dvi") dvi

/-- after `dvipng` in the directory `dir` (types.py:443-448) -/
def runPng (t : Tools) (dpi : Option Nat) (base dir out : Str) (fs : FS) : FS :=
  match fs (base ++ c!".dvi") with
  | none => fs
  | some dvi => match t.dvipng dpi dvi with
    | none => fs
    | some img => write fs (Path.join dir out) img

/-- after removing the temporary files (types.py:450-452) -/
def tidy (base : Str) (fs : FS) : FS := [c!".tex", c!".dvi", c!".aux", c!".log"].foldl (fun fs e => remove fs (base ++ e)) fs

/-- `tablePNG` (types.py:420-461); `base`: the temporary name; `text`: the document -/
def tablePNG (t : Tools) (dpi : Option Nat) (text base : Str) (filename : Option Str) (bytesIO : Bool) (st : St) : St × Except Err Result :=
  let out := outfile base filename
  let dir := Path.dirname (base ++ c!".tex")
  let fs := tidy base (runPng t dpi base dir out (runLatex t base text (write st.fs (base ++ c!".tex") text)))
  if bytesIO then match fs (Path.join st.cwd out) with
    | none => (⟨fs, st.cwd⟩, .error .notFound)
    | some d => (⟨remove fs (Path.join st.cwd out), st.cwd⟩, .ok (.data d))
  else (⟨fs, st.cwd⟩, .ok (.name out))

end Verif.TablePng
