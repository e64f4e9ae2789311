import Verif.Model.Settings
import Verif.Props.IniFile
import Verif.Props.SampleDict
import Verif.Lemmas.Split
import Mathlib.Tactic.IntervalCases

/-!
# C194, C195: typed settings and the settings of samples
-/

namespace Verif.Settings
open Verif.Py

variable {fs : ℚ → Str}

/-! ## numbers as text -/

theorem ws_of_digit {c : Char} (h : c.isDigit = true) : isWs c = false := by
  have h1 : 48 ≤ c.toNat ∧ c.toNat ≤ 57 := by
    unfold Char.isDigit at h
    simp only [Bool.and_eq_true, decide_eq_true_eq] at h
    exact ⟨h.1, h.2⟩
  unfold isWs
  have : ∀ n : Nat, 48 ≤ n → n ≤ 57 → ((9 ≤ n && n ≤ 13) || (28 ≤ n && n ≤ 32) || n == 0x85 || n == 0xA0 || n == 0x1680 ||
      (0x2000 ≤ n && n ≤ 0x200A) || n == 0x2028 || n == 0x2029 || n == 0x202F || n == 0x205F || n == 0x3000) = false := by
    intro n h1 h2
    interval_cases n <;> rfl
  exact this _ h1.1 h1.2

theorem takeSign_digit {s : Str} (h : ∀ c ∈ s, c.isDigit = true) : takeSign s = (false, s) := by
  cases s with
  | nil => rfl
  | cons c s =>
    have hc := h c List.mem_cons_self
    have h1 : c ≠ '-' := by rintro rfl; exact absurd hc (by decide)
    have h2 : c ≠ '+' := by rintro rfl; exact absurd hc (by decide)
    simp [takeSign, h1, h2]

/-- **C194** the text of an integer is read back as it -/
theorem intOf_intText (n : Int) : intOf (intText n) = some n := by
  have ht : ∀ m : Nat, Token (strNat m) := fun m => ⟨strNat_ne_nil m, fun c hc => ws_of_digit (strNat_isDigit hc)⟩
  have trim : ∀ t : Str, Token t → strip t = t := by
    intro t h
    apply strip_eq_self
    constructor
    · intro c hc; exact h.2 c (List.mem_of_mem_head? hc)
    · intro c hc; exact h.2 c (List.mem_of_mem_getLast? hc)
  unfold intOf intText
  dsimp only
  split
  · rename_i h
    rw [trim _ ⟨by simp, by
      intro c hc
      rcases List.mem_cons.mp hc with rfl | hc
      · decide
      · exact (ht _).2 c hc⟩, takeSign_minus]
    dsimp only
    rw [intStr_strNat]
    show some (-((n.natAbs : Nat) : Int)) = some n
    rw [show -((n.natAbs : Nat) : Int) = n by omega]
  · rename_i h
    rw [trim _ (ht _), takeSign_digit (fun c hc => strNat_isDigit hc)]
    dsimp only
    rw [intStr_strNat]
    show some ((n.natAbs : Nat) : Int) = some n
    rw [show ((n.natAbs : Nat) : Int) = n by omega]

example : intText (-120) = c!"-120" ∧ intOf c!" -120" = some (-120) := by decide +kernel

theorem intText_inj {m n : Int} (h : intText m = intText n) : m = n := by
  have := intOf_intText m
  rw [h, intOf_intText] at this
  injection this with this
  exact this.symm

theorem conv_int (s : Str) : conv fs .int (.str s) = match intOf s with
    | some n => .ok (.int n)
    | none => .error .value := rfl

theorem conv_flt (s : Str) : conv fs .flt (.str s) = match (floatStr s : Option ℚ) with
    | some x => .ok (.flt x)
    | none => .error .value := rfl

/-- reading a setting depends on the setting only -/
theorem asType_local {p q : Params} {n : Str} (h : p.get? n = q.get? n) (tp : Tp) (d : Option V) (ae : Bool) : asType fs p n tp d ae = asType fs q n tp d ae := by
  have h1 : ∀ ae, isSet p n ae = isSet q n ae := fun ae => by unfold isSet; rw [h]
  have h2 : ∀ tp ae, asSimple fs p n tp d ae = asSimple fs q n tp d ae := fun tp ae => by unfold asSimple; rw [h, h1]
  have h3 : getBool p n d = getBool q n d := by unfold getBool; rw [h, h1]
  have h4 : ∀ tp, split fs p n d tp = split fs q n d tp := fun tp => by unfold split getString; rw [h, h2]
  have h5 : ndarray fs p n d = ndarray fs q n d := by unfold ndarray; rw [h4]
  unfold asType
  rw [h, h1, h2, h3, h4, h5]

/-! ## reading of single settings -/

/-- **C194** A setting that is absent, or empty where this is not allowed, gives the default, and without default an error. -/
theorem unset (p : Params) (n : Str) (tp : Tp) (ae : Bool) (h : p.get? n = none ∨ (ae = false ∧ p.get? n = some (.one (.str [])))) :
    (∀ d, asType fs p n tp (some d) ae = .ok d) ∧ asType fs p n tp none ae = .error (.undefined n) := by
  have hs : isSet p n ae = false := by
    unfold isSet
    rcases h with h | ⟨rfl, h⟩ <;> simp [h]
  have simple : ∀ d, asSimple fs p n tp d ae = match d with
      | some d => .ok d
      | none => .error (.undefined n) := by
    intro d
    unfold asSimple
    rw [hs]; rfl
  have all : ∀ d, asType fs p n tp d ae = asSimple fs p n tp d ae := by
    intro d
    unfold asType
    rcases h with h | ⟨_, h⟩ <;> (cases tp <;> simp [h, hs])
  exact ⟨fun d => by rw [all, simple], by rw [all, simple]⟩

theorem isSet_text {p : Params} {n : Str} {s : Str} (h : p.get? n = some (.one (.str s))) (hs : s ≠ []) (ae : Bool) : isSet p n ae = true := by
  unfold isSet
  rw [h]
  simp [hs]

/-- **C194** Text of a number, of a truth value and other text is read as what it stands for. -/
theorem text_read (p : Params) (n s : Str) (h : p.get? n = some (.one (.str s))) (hs : s ≠ []) (d : Option V) (ae : Bool) :
    (∀ x, intOf s = some x → asType fs p n .int d ae = .ok (.one (.int x))) ∧
    (∀ x : ℚ, floatStr s = some x → asType fs p n .flt d ae = .ok (.one (.flt x))) ∧
    asType fs p n .str d ae = .ok (.one (.str s)) ∧
    (s.head? = some 'T' → asType fs p n .bool d ae = .ok (.one (.bool true))) ∧
    (s.head? = some 'F' → asType fs p n .bool d ae = .ok (.one (.bool false))) ∧
    (intOf s = none → asType fs p n .int d ae = .error .value) ∧
    ((floatStr s : Option ℚ) = none → asType fs p n .flt d ae = .error .value) ∧
    (s.head? ≠ some 'T' → s.head? ≠ some 'F' → asType fs p n .bool d ae = .error (.notBool n)) := by
  have h1 := isSet_text h hs ae
  have h2 := isSet_text h hs false
  refine ⟨?_, ?_, ?_, ?_, ?_, ?_, ?_, ?_⟩
  · intro x hx; unfold asType asSimple; rw [h]; dsimp only; rw [h1, if_pos rfl]; rw [conv_int, hx]
  · intro x hx; unfold asType asSimple; rw [h]; dsimp only; rw [h1, if_pos rfl]; rw [conv_flt, hx]
  · unfold asType asSimple; rw [h]; dsimp only; rw [h1, if_pos rfl]; rfl
  · intro hx; unfold asType; rw [h]; dsimp only; rw [h1, if_pos rfl]; unfold getBool; rw [h2, if_pos rfl, h]
    cases s with
    | nil => cases hx
    | cons c s => injection hx with hx; subst hx; rfl
  · intro hx; unfold asType; rw [h]; dsimp only; rw [h1, if_pos rfl]; unfold getBool; rw [h2, if_pos rfl, h]
    cases s with
    | nil => cases hx
    | cons c s => injection hx with hx; subst hx; rfl
  · intro hx; unfold asType asSimple; rw [h]; dsimp only; rw [h1, if_pos rfl]; rw [conv_int, hx]
  · intro hx; unfold asType asSimple; rw [h]; dsimp only; rw [h1, if_pos rfl]; rw [conv_flt, hx]
  · intro ht hf; unfold asType; rw [h]; dsimp only; rw [h1, if_pos rfl]; unfold getBool; rw [h2, if_pos rfl, h]
    cases s with
    | nil => exact absurd rfl hs
    | cons c s =>
      have e1 : c ≠ 'T' := fun e => ht (by rw [e]; rfl)
      have e2 : c ≠ 'F' := fun e => hf (by rw [e]; rfl)
      split
      · rename_i heq; injection heq with heq; cases heq
      · rename_i heq; injection heq with heq; injection heq with heq; injection heq with heq; injection heq with heq _; exact absurd heq e1
      · rename_i heq; injection heq with heq; injection heq with heq; injection heq with heq; injection heq with heq _; exact absurd heq e2
      · rfl
      · rename_i heq; injection heq with heq; cases heq
      · rename_i heq; injection heq with heq; cases heq
      · rename_i heq; injection heq with heq; cases heq
      · simp_all

/-- **C194** A value set in the program is read with its own type as it is. -/
theorem value_read (p : Params) (n : Str) (d : Option V) (ae : Bool) :
    (∀ x, p.get? n = some (.one (.int x)) → asType fs p n .int d ae = .ok (.one (.int x))) ∧
    (∀ x, p.get? n = some (.one (.flt x)) → asType fs p n .flt d ae = .ok (.one (.flt x))) ∧
    (∀ x, p.get? n = some (.one (.int x)) → asType fs p n .flt d ae = .ok (.one (.flt x))) ∧
    (∀ x, p.get? n = some (.one (.bool x)) → asType fs p n .bool d ae = .ok (.one (.bool x))) ∧
    (∀ l, p.get? n = some (.lst l) → asType fs p n .list d ae = .ok (.lst l)) ∧
    (∀ l : List ℚ, p.get? n = some (.lst (l.map .flt)) → asType fs p n .arr d ae = .ok (.arr l)) := by
  refine ⟨?_, ?_, ?_, ?_, ?_, ?_⟩
  · intro x h; unfold asType asSimple isSet; rw [h]; simp [conv]
  · intro x h; unfold asType asSimple isSet; rw [h]; simp [conv]
  · intro x h; unfold asType asSimple isSet; rw [h]; simp [conv]
  · intro x h; unfold asType isSet; rw [h]; simp [getBool, isSet, h]
  · intro l h; unfold asType isSet; rw [h]; simp [split, h, convAll]
  · intro l h
    have h1 : (l.map Atom.flt).mapM (conv fs .flt) = .ok (l.map Atom.flt) := by
      induction l with
      | nil => rfl
      | cons a l ih =>
        rw [List.map_cons, List.mapM_cons]
        have : (l.map Atom.flt).mapM (conv fs .flt) = .ok (l.map Atom.flt) := by
          clear ih h
          induction l with
          | nil => rfl
          | cons b l ih => rw [List.map_cons, List.mapM_cons, ih]; rfl
        rw [this]; rfl
    have h2 : numsOf (l.map .flt) = .ok l := by
      clear h h1
      induction l with
      | nil => rfl
      | cons a l ih => rw [List.map_cons]; unfold numsOf; rw [ih]
    unfold asType isSet; rw [h]; simp [ndarray, split, h, convAll, h1, h2]

/-! ## lists -/

/-- reading all of a list -/
theorem mapM_texts {α : Type} (g : α → Except Err Atom) (l : List α) (r : List Atom) (h : List.Forall₂ (fun a b => g a = .ok b) l r) : l.mapM g = .ok r := by
  induction h with
  | nil => rfl
  | cons h1 _ ih => rw [List.mapM_cons, h1, ih]; rfl

/-- **C194** A list written as words with blanks between is read as the list of what the words stand for, words, integers or floats. -/
theorem list_read (p : Params) (n : Str) (ws : List Str) (hw : ∀ w ∈ ws, Token w) (tail : Str) (hb : Blank tail)
    (h : p.get? n = some (.one (.str (join [' '] ws ++ tail)))) (d : Option V) :
    getList fs p n d none = .ok (.lst (ws.map .str)) ∧
    (∀ xs : List Int, List.Forall₂ (fun w x => intOf w = some x) ws xs → intList fs p n d = .ok (.lst (xs.map .int))) ∧
    (∀ xs : List ℚ, List.Forall₂ (fun w x => floatStr w = some x) ws xs → floatList fs p n d = .ok (.lst (xs.map .flt)) ∧ ndarray fs p n d = .ok (.arr xs)) := by
  have hg : ∀ d, getString fs p n d = .ok (.one (.str (join [' '] ws ++ tail))) := by
    intro d
    unfold getString asSimple isSet
    rw [h]; simp [conv, pyStr]
  have hsp : ∀ d tp, split fs p n d tp = convAll fs tp (ws.map .str) := by
    intro d tp
    unfold split
    rw [h]
    dsimp only
    rw [hg]
    dsimp only
    rw [splitWs_join hw hb]
  have lift : ∀ {α : Type} (q : Str → Option α) (c : α → Atom) (tp : Tp) (hq : ∀ w x, q w = some x → conv fs tp (.str w) = .ok (c x)) (xs : List α),
      List.Forall₂ (fun w x => q w = some x) ws xs → (ws.map Atom.str).mapM (conv fs tp) = .ok (xs.map c) := by
    intro α q c tp hq xs hx
    apply mapM_texts
    clear h hg hsp hw
    induction hx with
    | nil => exact .nil
    | cons h1 _ ih => exact .cons (hq _ _ h1) ih
  refine ⟨?_, ?_, ?_⟩
  · unfold getList; rw [hsp]; rfl
  · intro xs hx
    unfold intList
    rw [hsp]
    unfold convAll
    dsimp only
    rw [lift intOf .int .int (fun w x e => by rw [conv_int, e]) xs hx]
  · intro xs hx
    have e := lift (fun w => (floatStr w : Option ℚ)) .flt .flt (fun w x e => by rw [conv_flt, show (floatStr w : Option ℚ) = some x from e]) xs hx
    have h2 : numsOf (xs.map .flt) = .ok xs := by
      clear hx e
      induction xs with
      | nil => rfl
      | cons a l ih => rw [List.map_cons]; unfold numsOf; rw [ih]
    constructor
    · unfold floatList; rw [hsp]; unfold convAll; dsimp only; rw [e]
    · unfold ndarray; rw [hsp]; unfold convAll; dsimp only; rw [e]; dsimp only; rw [h2]

example : floatList (fun _ => []) [(c!"a", .one (.str c!"1 2.5 -3 "))] c!"a" none = .ok (.lst [.flt 1, .flt (5 / 2), .flt (-3)]) ∧
    getList (fun _ => []) [(c!"a", .one (.str c!"1 2.5 -3 "))] c!"a" none none = .ok (.lst [.str c!"1", .str c!"2.5", .str c!"-3"]) := by decide +kernel

/-- **C194** and an absent list is empty unless there is a default -/
theorem list_absent (p : Params) (n : Str) (h : p.get? n = none) :
    getList fs p n none none = .ok (.lst []) ∧ intList fs p n none = .ok (.lst []) ∧ floatList fs p n none = .ok (.lst []) ∧
    ∀ l, intList fs p n (some (.lst l)) = .ok (.lst l) := by
  have : ∀ d tp, split fs p n (some (.lst d)) tp = .ok (.lst d) := by
    intro d tp
    unfold split getString asSimple isSet
    rw [h]; simp
  exact ⟨this _ _, this _ _, this _ _, fun l => this _ _⟩

example : intList (fun _ => []) [] c!"a" (some (.lst [.int 4])) = .ok (.lst [.int 4]) ∧ getList (fun _ => []) [] c!"a" none none = .ok (.lst []) := by decide +kernel

/-- **C194** Entries with different numbers are different settings. -/
theorem indexed_inj {name : Str} {i j : Int} (h : indexed name i = indexed name j) : i = j := by
  unfold indexed at h
  rw [List.append_assoc, List.append_assoc, List.append_assoc, List.append_assoc] at h
  have h := List.append_cancel_left (List.append_cancel_left h)
  exact intText_inj (List.append_cancel_right h)

example : indexed c!"use" 3 = c!"use(3)" ∧ indexed c!"use" (-3) = c!"use(-3)" := by decide +kernel

/-- **C194** and an entry set in the program is read from its own number -/
theorem array_read (p : Params) (name : Str) (i j : Int) (hij : i ≠ j) (n : Int) (d : Option V) :
    arrayInt fs (p.set (indexed name i) (.one (.int n))) name i d = .ok (.one (.int n)) ∧
    arrayInt fs (p.set (indexed name i) (.one (.int n))) name j d = arrayInt fs p name j d := by
  constructor
  · exact (value_read _ _ d false).1 n (Dict.get?_set_self _ _ _)
  · have : Dict.get? (p.set (indexed name i) (.one (.int n))) (indexed name j) = p.get? (indexed name j) :=
      Dict.get?_set_of_ne _ _ (fun e => hij (indexed_inj e).symm)
    exact asType_local this _ _ _

/-! ## saving and reading back -/

/-- a loaded value -/
def ofVal : IniFile.Val → V
  | .str s => .one (.str s)
  | .bool b => .one (.bool b)
  | .other s => .one (.str s)

/-- single values with a text that stands for them -/
def Printable (fs : ℚ → Str) : Atom → Prop
  | .str s => s ≠ []
  | .flt x => floatStr (fs x) = some x
  | _ => True

/-- **C194** Attributes put in a table with getAttr, saved to a file, loaded, and set with setAttr on an object where they have the same type have the value they had. -/
theorem attr_roundtrip (p : Params) (hp : p.WF) (o : Attrs)
    (hk : ∀ e ∈ p, IniFile.KeyOK e.1 ∧ IniFile.ValOK (IniFile.asIniText (toVal fs e.2)) ∧ IniFile.NoRef true (IniFile.asIniText (toVal fs e.2)))
    (n : Str) (a : Atom) (ha : p.get? n = some (.one a)) (hpr : Printable fs a) (d : V) (hd : o.get? n = some d) (ht : typeOf d = typeOf (.one a))
    (files env : Str → Option Str) (file : Str) (hf : files file = some (IniFile.toText { params := p.map fun e => (e.1, toVal fs e.2) })) :
    ∃ ini, IniFile.load files env 1 file false true = .ok ini ∧
      ∀ q : Params, (∀ k, q.get? k = (ini.params.get? k).map ofVal) → ∃ o', setAttr fs q n none false o = .ok o' ∧ o'.get? n = some (.one a) := by
  let ini0 : IniFile.Ini := { params := p.map fun e => (e.1, toVal fs e.2) }
  have hw : ini0.params.WF := by
    show (Dict.keys (p.map fun e => (e.1, toVal fs e.2))).Nodup
    unfold Dict.keys
    rw [List.map_map]
    exact hp
  obtain ⟨ini, h1, h2, _⟩ := IniFile.save_load_roundtrip ini0 hw (by
      intro e he
      obtain ⟨x, hx, rfl⟩ := List.mem_map.mp he
      exact ⟨(hk x hx).1, (hk x hx).2.1⟩) true (by
      intro e he
      obtain ⟨x, hx, rfl⟩ := List.mem_map.mp he
      exact (hk x hx).2.2) (by intro f hf; cases hf) false (Or.inr ⟨rfl, rfl⟩) files env 0 file hf
  refine ⟨ini, h1, fun q hq => ?_⟩
  have hg : ini0.params.get? n = some (toVal fs (.one a)) := by
    exact Dict.get?_of_mem hw (List.mem_map.mpr ⟨(n, .one a), Dict.mem_of_get? ha, rfl⟩)
  have hqn : q.get? n = some (.one (.str (IniFile.asIniText (toVal fs (.one a))))) := by
    rw [hq, h2, hg]; rfl
  have key : asType fs q n (typeOf d) (some d) false = .ok (.one a) := by
    rw [ht]
    cases a with
    | str s => exact (text_read q n s hqn hpr (some d) false).2.2.1
    | bool b =>
      cases b with
      | true => exact (text_read q n c!"T" hqn (by decide) (some d) false).2.2.2.1 rfl
      | false => exact (text_read q n c!"F" hqn (by decide) (some d) false).2.2.2.2.1 rfl
    | int m =>
      refine (text_read q n _ hqn ?_ (some d) false).1 m (intOf_intText m)
      show intText m ≠ []
      intro e
      have := intOf_intText m
      rw [e, show intOf [] = none by decide] at this
      cases this
    | flt x =>
      refine (text_read q n _ hqn ?_ (some d) false).2.1 x hpr
      show fs x ≠ []
      intro e
      have h : floatStr (fs x) = some x := hpr
      rw [e] at h
      exact absurd h (by simp [floatStr, takeSign, strip, lstrip, rstrip, fracPart])
  refine ⟨o.set n (.one a), ?_, Dict.get?_set_self _ _ _⟩
  unfold setAttr
  rw [hd]
  show (match asType fs q n (typeOf d) (some d) false with | .ok v => _ | .error e => _) = _
  rw [key]

example : setAttr (fun _ => []) [(c!"fine_bins", .one (.str (intText 512)))] c!"fine_bins" none false [(c!"fine_bins", .one (.int 1024))] =
    .ok [(c!"fine_bins", .one (.int 512))] := by decide +kernel

/-! ## settings of samples -/

theorem string_set {p : Params} {n : Str} (h : isSet p n true = true) (d : Option V) : ∃ s, getString fs p n d = .ok (.one (.str s)) := by
  unfold getString asSimple
  rw [h, if_pos rfl]
  unfold isSet at h
  cases hg : p.get? n with
  | none => rw [hg] at h; cases h
  | some v =>
    cases v with
    | one a => exact ⟨_, rfl⟩
    | lst l => exact ⟨_, rfl⟩
    | arr l => exact ⟨_, rfl⟩

/-- reading a setting gives a value of the type asked for -/
theorem asType_type {p : Params} {n : Str} {tp : Tp} {d v : V} {ae : Bool} (hd : typeOf d = tp) (h : asType fs p n tp (some d) ae = .ok v) : typeOf v = tp := by
  have conv_type : ∀ (t : Tp) (a x : Atom), conv fs t a = .ok x → typeOf (.one x) = t := by
    intro t a x hx
    cases t <;> cases a <;> unfold conv at hx <;> dsimp only at hx
    all_goals first
      | (injection hx with hx; subst hx; rfl)
      | (split at hx <;> first | (injection hx with hx; subst hx; rfl) | cases hx)
      | cases hx
  have simple : asSimple fs p n tp (some d) ae = .ok v → typeOf v = tp := by
    intro h
    unfold asSimple at h
    split at h
    · split at h
      · split at h
        · rename_i hx
          injection h with h
          subst h
          exact conv_type _ _ _ hx
        · cases h
      · split at h
        · rename_i ht
          injection h with h
          subst h
          rw [ht]; rfl
        · cases h
      · split at h
        · rename_i ht
          injection h with h
          subst h
          rw [ht]; rfl
        · cases h
      · cases h
    · injection h with h
      subst h
      exact hd
  have hb : getBool p n (some d) = .ok v → tp = .bool → typeOf v = tp := by
    intro h ht
    unfold getBool at h
    split at h
    · split at h
      all_goals first
        | (injection h with h; subst h; rw [ht]; rfl)
        | cases h
        | skip
      split at h
      · injection h with h; subst h; rw [ht]; rfl
      · split at h
        · injection h with h; subst h; rw [ht]; rfl
        · cases h
    · injection h with h
      subst h
      exact hd
  have hl : isSet p n ae = true → split fs p n (some d) none = .ok v → tp = .list → typeOf v = tp := by
    intro hs h ht
    rw [ht]
    unfold split convAll at h
    split at h
    · injection h with h; subst h; rfl
    · have hs' : isSet p n true = true := by
        unfold isSet at hs ⊢
        split at hs
        · cases hs
        · rfl
      obtain ⟨w, hw⟩ := string_set (fs := fs) hs' (some d)
      rw [hw] at h
      injection h with h; subst h; rfl
  have ha : ndarray fs p n (some d) = .ok v → tp = .arr → typeOf v = tp := by
    intro h ht
    rw [ht]
    unfold ndarray at h
    split at h
    · cases h
    · split at h
      · injection h with h; subst h; rfl
      · cases h
    · injection h with h; subst h; rfl
    · cases h
  unfold asType at h
  split at h
  · exact simple h
  · cases h
  · split at h
    · exact hb h rfl
    · exact simple h
  · split at h
    · rename_i hs
      exact hl hs h rfl
    · exact simple h
  · split at h
    · exact ha h rfl
    · exact simple h
  · exact simple h

example : asType (fun _ => []) [(c!"a", .one (.str c!"7"))] c!"a" .flt (some (.one (.flt 1))) false = .ok (.one (.flt 7)) := by decide +kernel

/-- a setting that is there is read independently of the default, and the default is given otherwise -/
theorem asType_set {p : Params} {n : Str} {tp : Tp} (h : isSet p n false = true) (d d' : Option V) : asType fs p n tp d false = asType fs p n tp d' false := by
  have hs : isSet p n true = true := by
    unfold isSet at h ⊢
    split at h
    · cases h
    · rfl
  have simple : ∀ t ae, isSet p n ae = true → asSimple fs p n t d ae = asSimple fs p n t d' ae := by
    intro t ae h
    unfold asSimple
    rw [h]; rfl
  have hl : ∀ tp, split fs p n d tp = split fs p n d' tp := by
    intro t
    unfold split getString
    rw [simple _ _ hs]
  have ha : ndarray fs p n d = ndarray fs p n d' := by unfold ndarray; rw [hl]
  have hb : getBool p n d = getBool p n d' := by
    unfold getBool
    rw [h]; rfl
  unfold asType
  rw [simple _ _ h, hb, hl, ha]

theorem asType_unset {p : Params} {n : Str} {tp : Tp} (h : isSet p n false = false) (d : V) : asType fs p n tp (some d) false = .ok d := by
  refine (unset p n tp false ?_).1 d
  unfold isSet at h
  cases hg : p.get? n with
  | none => exact Or.inl rfl
  | some v =>
    rw [hg] at h
    right
    simp only [Bool.false_or, decide_eq_false_iff_not, ne_eq, Decidable.not_not] at h
    exact ⟨rfl, by rw [h]⟩

theorem setAttr_ok {p : Params} {n : Str} {o o' : Attrs} {dflt : Option V} (h : setAttr fs p n dflt false o = .ok o') :
    ∃ d v, (o.get? n).or dflt = some d ∧ asType fs p n (typeOf d) (some d) false = .ok v ∧ o' = o.set n v := by
  unfold setAttr at h
  split at h
  · split at h <;> cases h
  · rename_i d hd
    split at h
    · rename_i v hv
      injection h with h
      exact ⟨d, v, hd, hv, h.symm⟩
    · cases h

/-- each of some distinct attributes is set from its setting, others are kept -/
theorem setAll_spec {p : Params} : ∀ (ns : List Str) (o o' : Attrs), ns.Nodup → setAll fs p ns o = .ok o' →
    (∀ n ∈ ns, ∃ d v, o.get? n = some d ∧ asType fs p n (typeOf d) (some d) false = .ok v ∧ o'.get? n = some v) ∧ ∀ n, n ∉ ns → o'.get? n = o.get? n
  | [], o, o', _, h => by
    injection h with h
    subst h
    exact ⟨by simp, fun _ _ => rfl⟩
  | n :: ns, o, o', hn, h => by
    unfold setAll at h
    split at h
    · rename_i o1 h1
      obtain ⟨d, v, e1, e2, rfl⟩ := setAttr_ok h1
      have hn' := List.nodup_cons.mp hn
      obtain ⟨i1, i2⟩ := setAll_spec ns _ _ hn'.2 h
      have e1 : o.get? n = some d := by
        cases hg : o.get? n with
        | none => rw [hg] at e1; cases e1
        | some w => rw [hg] at e1; exact e1
      constructor
      · intro m hm
        by_cases hmn : m = n
        · subst hmn
          refine ⟨d, v, e1, e2, ?_⟩
          rw [i2 _ hn'.1, Dict.get?_set_self]
        · obtain ⟨d', v', f1, f2, f3⟩ := i1 m ((List.mem_cons.mp hm).resolve_left hmn)
          rw [Dict.get?_set, if_neg hmn] at f1
          exact ⟨d', v', f1, f2, f3⟩
      · intro m hm
        rw [List.mem_cons, not_or] at hm
        rw [i2 m hm.2, Dict.get?_set, if_neg hm.1]
    · cases h

/-- all settings of attributes but the contours -/
def Names : List Str := burnNames ++ namesA ++ namesB

theorem names_nodup : Names.Nodup := by decide +kernel

theorem contours_notin : c!"contours" ∉ Names := by decide +kernel

theorem contoursStep_ok {p : Params} {o o' : Attrs} (h : contoursStep fs p o = .ok o') : ∃ v, o' = o.set c!"contours" v ∨ o' = o := by
  unfold contoursStep at h
  split at h
  · obtain ⟨d, v, _, _, rfl⟩ := setAttr_ok h
    exact ⟨v, Or.inl rfl⟩
  · split at h
    · split at h
      · cases h
      · split at h
        · cases h
        · split at h
          · cases h
          · injection h with h
            exact ⟨_, Or.inl h.symm⟩
    · injection h with h
      exact ⟨.lst [], Or.inr h.symm⟩

/-- the steps of `initParameters` -/
theorem init_steps {frac : ℚ → ℚ} {p : Params} {m m' : MC} (h : initParameters fs frac p m = .ok m') :
    ∃ o1 o2 o3 rows, setAll fs p burnNames m.attrs = .ok o1 ∧ rowsOf o1 = .ok rows ∧ setAll fs p namesA o1 = .ok o2 ∧ contoursStep fs p o2 = .ok o3 ∧
      (contoursOf o3).zipIdx.mapM (fracAt fs frac p) = .ok m'.maxFrac ∧ contoursOf o3 ≠ [] ∧ setAll fs p namesB o3 = .ok m'.attrs ∧
      m'.ignoreLines = (burnOf rows).1 ∧ m'.ignoreFrac = (burnOf rows).2 ∧ m'.ini = p := by
  unfold initParameters at h
  split at h
  · cases h
  · rename_i o1 h1
    split at h
    · cases h
    · rename_i rows h2
      split at h
      · cases h
      · rename_i o2 h3
        split at h
        · cases h
        · rename_i o3 h4
          split at h
          · cases h
          · rename_i fr h5
            split at h
            · cases h
            · rename_i h6
              split at h
              · cases h
              · rename_i o4 h7
                injection h with h
                subst h
                exact ⟨o1, o2, o3, rows, h1, h2, h3, h4, h5, h6, h7, rfl, rfl, rfl⟩

/-- **C194** Each setting of samples is its entry of the settings, read with the type of the attribute, or is left as it was. -/
theorem init_attrs {frac : ℚ → ℚ} {p : Params} {m m' : MC} (h : initParameters fs frac p m = .ok m') :
    (∀ n ∈ Names, ∃ d v, m.attrs.get? n = some d ∧ asType fs p n (typeOf d) (some d) false = .ok v ∧ m'.attrs.get? n = some v ∧ typeOf v = typeOf d) ∧
    ∀ n, n ∉ Names → n ≠ c!"contours" → m'.attrs.get? n = m.attrs.get? n := by
  obtain ⟨o1, o2, o3, rows, h1, _, h3, h4, _, _, h7, _⟩ := init_steps h
  have hn := names_nodup
  unfold Names at hn
  have nd1 := (List.nodup_append.mp (List.nodup_append.mp hn).1)
  have nd2 := List.nodup_append.mp hn
  obtain ⟨a1, a2⟩ := setAll_spec _ _ _ nd1.1 h1
  obtain ⟨b1, b2⟩ := setAll_spec _ _ _ nd1.2.1 h3
  obtain ⟨c1, c2⟩ := setAll_spec _ _ _ nd2.2.1 h7
  have mid : ∀ n, n ≠ c!"contours" → o3.get? n = o2.get? n := by
    intro n hn
    obtain ⟨v, rfl | rfl⟩ := contoursStep_ok h4
    · rw [Dict.get?_set, if_neg hn]
    · rfl
  constructor
  · intro n hn
    have hc : n ≠ c!"contours" := fun e => contours_notin (e ▸ hn)
    have fin : ∀ d v, m.attrs.get? n = some d → asType fs p n (typeOf d) (some d) false = .ok v → m'.attrs.get? n = some v →
        ∃ d v, m.attrs.get? n = some d ∧ asType fs p n (typeOf d) (some d) false = .ok v ∧ m'.attrs.get? n = some v ∧ typeOf v = typeOf d :=
      fun d v x y z => ⟨d, v, x, y, z, asType_type rfl y⟩
    rcases List.mem_append.mp hn with hn | hn
    · rcases List.mem_append.mp hn with hn | hn
      · obtain ⟨d, v, x, y, z⟩ := a1 n hn
        refine fin d v x y ?_
        rw [c2 n (fun hm => nd2.2.2 n (List.mem_append_left _ hn) n hm rfl), mid n hc, b2 n (fun hm => nd1.2.2 n hn n hm rfl), z]
      · obtain ⟨d, v, x, y, z⟩ := b1 n hn
        rw [a2 n (fun hm => nd1.2.2 n hm n hn rfl)] at x
        refine fin d v x y ?_
        rw [c2 n (fun hm => nd2.2.2 n (List.mem_append_right _ hn) n hm rfl), mid n hc, z]
    · obtain ⟨d, v, x, y, z⟩ := c1 n hn
      rw [mid n hc, b2 n (fun hm => nd2.2.2 n (List.mem_append_right _ hm) n hn rfl), a2 n (fun hm => nd2.2.2 n (List.mem_append_left _ hm) n hn rfl)] at x
      exact fin d v x y z
  · intro n hn hc
    unfold Names at hn
    rw [List.mem_append, List.mem_append, not_or, not_or] at hn
    rw [c2 n hn.2, mid n hc, b2 n hn.1.2, a2 n hn.1.1]

example : (match initParameters (fun _ => []) id [(c!"num_bins", .one (.str c!"60"))] { attrs := attrs0 0, ini := [] } with
    | .ok m => (m.attrs.get? c!"num_bins", m.attrs.get? c!"fine_bins")
    | .error _ => (none, none)) = (some (.one (.int 60)), some (.one (.int 1024))) := by decide +kernel

/-- **C194** Settings given later count, then those given before, then those of the file: two updates are one with both. -/
theorem update_twice {frac : ℚ → ℚ} {s1 s2 ini : Params} {m m1 m2 m12 : MC} (hw1 : s1.WF) (hw2 : s2.WF) (he : ∀ n, s2.get? n ≠ some (.one (.str [])))
    (h1 : updateSettings fs frac s1 (some ini) m = .ok m1) (h2 : updateSettings fs frac s2 none m1 = .ok m2)
    (h12 : updateSettings fs frac (s1.update s2) (some ini) m = .ok m12) (n : Str) (hn : n ∈ Names) : m2.attrs.get? n = m12.attrs.get? n := by
  unfold updateSettings at h1 h2 h12
  simp only [Option.getD_some, Option.getD_none] at h1 h2 h12
  have e1 : m1.ini = ini.update s1 := (init_steps h1).choose_spec.choose_spec.choose_spec.choose_spec.2.2.2.2.2.2.2.2.2
  rw [e1] at h2
  have hw12 : (s1.update s2).WF := by
    have gen : ∀ (e d : Params), d.WF → (d.update e).WF := by
      intro e
      induction e with
      | nil => intro d hd; exact hd
      | cons a e ih => intro d hd; exact ih _ (Dict.WF_set _ _ hd)
    exact gen s2 s1 hw1
  have raw : Dict.get? ((ini.update s1).update s2) n = Dict.get? (ini.update (s1.update s2)) n := by
    rw [SampleDict.get?_update' hw2, SampleDict.get?_update' hw1, SampleDict.get?_update' hw12, SampleDict.get?_update' hw2, Option.or_assoc]
  obtain ⟨d, v1, a1, a2, a3, a4⟩ := (init_attrs h1).1 n hn
  obtain ⟨d1, v2, b1, b2, b3, b4⟩ := (init_attrs h2).1 n hn
  obtain ⟨d', v12, c1, c2, c3, c4⟩ := (init_attrs h12).1 n hn
  rw [a1] at c1
  injection c1 with c1
  subst c1
  rw [a3] at b1
  injection b1 with b1
  subst b1
  rw [b3, c3]
  rw [asType_local raw] at b2
  rw [a4] at b2
  by_cases hs : isSet (ini.update (s1.update s2)) n false = true
  · rw [asType_set hs (some v1) (some d), c2] at b2
    injection b2 with b2
    rw [b2]
  · have hs : isSet (ini.update (s1.update s2)) n false = false := by simpa using hs
    rw [asType_unset hs] at b2 c2
    injection b2 with b2
    injection c2 with c2
    have : isSet (ini.update s1) n false = false := by
      unfold isSet at hs ⊢
      rw [SampleDict.get?_update' hw12, SampleDict.get?_update' hw2] at hs
      rw [SampleDict.get?_update' hw1]
      cases hs2 : s2.get? n with
      | none => rw [hs2] at hs; exact hs
      | some w =>
        rw [hs2] at hs
        simp only [Option.some_or, Bool.false_or, decide_eq_false_iff_not, ne_eq, Decidable.not_not] at hs
        exact absurd (by rw [hs2, hs]) (he n)
    rw [asType_unset this] at a2
    injection a2 with a2
    rw [← b2, ← c2, a2]

example : (match updateSettings (fun _ => []) id [(c!"num_bins", .one (.int 60)), (c!"fine_bins", .one (.int 512))] (some []) { attrs := attrs0 0, ini := [] } with
    | .ok m => (match updateSettings (fun _ => []) id [(c!"num_bins", .one (.int 80))] none m with
      | .ok m2 => (m2.attrs.get? c!"num_bins", m2.attrs.get? c!"fine_bins")
      | .error _ => (none, none))
    | .error _ => (none, none)) = (some (.one (.int 80)), some (.one (.int 512))) := by decide +kernel

/-- **C194** Burn-in: below one it is a fraction, from one on a number of lines, never both. -/
theorem burn_spec {frac : ℚ → ℚ} {p : Params} {m m' : MC} (h : initParameters fs frac p m = .ok m') :
    ∃ rows, rowsOf m'.attrs = .ok rows ∧ (0 ≤ rows → rows < 1 → m'.ignoreLines = 0 ∧ m'.ignoreFrac = rows) ∧
      (1 ≤ rows → (m'.ignoreLines : ℚ) ≤ rows ∧ rows < m'.ignoreLines + 1 ∧ m'.ignoreFrac = 0) := by
  obtain ⟨o1, o2, o3, rows, h1, h2, h3, h4, _, _, h7, h8, h9, _⟩ := init_steps h
  have hn := names_nodup
  unfold Names at hn
  have nd1 := (List.nodup_append.mp (List.nodup_append.mp hn).1)
  have nd2 := List.nodup_append.mp hn
  have same : m'.attrs.get? c!"ignore_rows" = o1.get? c!"ignore_rows" := by
    rw [(setAll_spec _ _ _ nd2.2.1 h7).2 _ (by decide +kernel)]
    have : o3.get? c!"ignore_rows" = o2.get? c!"ignore_rows" := by
      obtain ⟨v, rfl | rfl⟩ := contoursStep_ok h4
      · rw [Dict.get?_set, if_neg (by decide)]
      · rfl
    rw [this, (setAll_spec _ _ _ nd1.2.1 h3).2 _ (by decide +kernel)]
  refine ⟨rows, ?_, ?_, ?_⟩
  · unfold rowsOf
    rw [same]
    exact h2
  · intro r0 r1
    have : Thin.trunc rows = 0 := by
      unfold Thin.trunc
      rw [if_pos r0, Int.floor_eq_zero_iff]
      exact ⟨r0, r1⟩
    rw [h8, h9]
    unfold burnOf
    rw [if_pos this]
    exact ⟨rfl, rfl⟩
  · intro r1
    have t : Thin.trunc rows = ⌊rows⌋ := by
      unfold Thin.trunc
      rw [if_pos (by linarith)]
    have : Thin.trunc rows ≠ 0 := by
      rw [t]
      have : 1 ≤ ⌊rows⌋ := Int.le_floor.mpr (by exact_mod_cast r1)
      omega
    rw [h8, h9]
    unfold burnOf
    rw [if_neg this, t]
    exact ⟨Int.floor_le _, Int.lt_floor_add_one _, rfl⟩

example : (match initParameters (fun _ => []) id [(c!"ignore_rows", .one (.str c!"0.3"))] { attrs := attrs0 0, ini := [] } with
    | .ok m => (m.ignoreLines, m.ignoreFrac)
    | .error _ => (0, 0)) = (0, 3 / 10) ∧
    (match initParameters (fun _ => []) id [(c!"ignore_rows", .one (.str c!"20.5"))] { attrs := attrs0 0, ini := [] } with
    | .ok m => (m.ignoreLines, m.ignoreFrac)
    | .error _ => (0, 0)) = (20, 0) := by decide +kernel

/-! ## contours -/

theorem mapM_forall₂ {α β : Type} {g : α → Except Err β} : ∀ {l : List α} {r : List β}, l.mapM g = .ok r → List.Forall₂ (fun a b => g a = .ok b) l r
  | [], r, h => by
    injection h with h
    subst h; exact .nil
  | a :: l, r, h => by
    rw [List.mapM_cons] at h
    cases h1 : g a with
    | error e => rw [h1] at h; cases h
    | ok x =>
      rw [h1] at h
      cases h2 : l.mapM g with
      | error e => rw [h2] at h; cases h
      | ok y =>
        rw [h2] at h
        injection h with h
        subst h
        exact .cons h1 (mapM_forall₂ h2)

/-- `initParameters` keeps the contours after they have been read -/
theorem init_contours {frac : ℚ → ℚ} {p : Params} {m m' : MC} (h : initParameters fs frac p m = .ok m') :
    ∃ o2 o3, o2.get? c!"contours" = m.attrs.get? c!"contours" ∧ contoursStep fs p o2 = .ok o3 ∧ m'.attrs.get? c!"contours" = o3.get? c!"contours" ∧
      contoursOf m'.attrs ≠ [] ∧ List.Forall₂ (fun e v => fracAt fs frac p e = .ok v) (contoursOf m'.attrs).zipIdx m'.maxFrac := by
  obtain ⟨o1, o2, o3, rows, h1, _, h3, h4, h5, h6, h7, _⟩ := init_steps h
  have hn := names_nodup
  unfold Names at hn
  have nd1 := (List.nodup_append.mp (List.nodup_append.mp hn).1)
  have nd2 := List.nodup_append.mp hn
  have hc := contours_notin
  unfold Names at hc
  rw [List.mem_append, List.mem_append, not_or, not_or] at hc
  have e : m'.attrs.get? c!"contours" = o3.get? c!"contours" := (setAll_spec _ _ _ nd2.2.1 h7).2 _ hc.2
  have e' : contoursOf m'.attrs = contoursOf o3 := by unfold contoursOf; rw [e]
  refine ⟨o2, o3, ?_, h4, e, by rw [e']; exact h6, ?_⟩
  · rw [(setAll_spec _ _ _ nd1.2.1 h3).2 _ hc.1.2, (setAll_spec _ _ _ nd1.1 h1).2 _ hc.1.1]
  · rw [e']; exact mapM_forall₂ h5

/-- **C194** Contours written as numbers with blanks between are those numbers. -/
theorem contours_text {frac : ℚ → ℚ} {p : Params} {m m' : MC} (h : initParameters fs frac p m = .ok m') (c0 : List ℚ) (hc : m.attrs.get? c!"contours" = some (.arr c0))
    (w : Str) (ws : List Str) (hw : ∀ x ∈ w :: ws, Token x) (hp : p.get? c!"contours" = some (.one (.str (join [' '] (w :: ws))))) (xs : List ℚ)
    (hx : List.Forall₂ (fun w x => floatStr w = some x) (w :: ws) xs) : contoursOf m'.attrs = xs := by
  obtain ⟨o2, o3, e1, e2, e3, _⟩ := init_contours h
  unfold contoursStep at e2
  have hh : Dict.has p c!"contours" = true := by unfold Dict.has; rw [hp]; rfl
  rw [if_pos hh] at e2
  obtain ⟨d, v, f1, f2, rfl⟩ := setAttr_ok e2
  rw [e1, hc] at f1
  injection f1 with f1
  subst f1
  have hne : join [' '] (w :: ws) ≠ [] := by
    have := (hw w List.mem_cons_self).1
    cases ws with
    | nil => exact this
    | cons y ws =>
      rw [join_cons2]
      simp [this]
  have key : asType fs p c!"contours" (typeOf (.arr c0)) (some (.arr c0)) false = .ok (.arr xs) := by
    have := ((list_read (fs := fs) p c!"contours" (w :: ws) hw [] (by intro c hc; cases hc) (by rw [List.append_nil]; exact hp) (some (.arr c0))).2.2 xs hx).2
    unfold asType
    rw [hp]
    show (if isSet p c!"contours" false = true then _ else _) = _
    rw [isSet_text hp hne, if_pos rfl, this]
  rw [key] at f2
  injection f2 with f2
  unfold contoursOf
  rw [e3, Dict.get?_set_self, ← f2]

/-- **C194** Without these, contours are `contour1`, `contour2`, …, as many as asked for. -/
theorem contours_numbered {frac : ℚ → ℚ} {p : Params} {m m' : MC} (h : initParameters fs frac p m = .ok m') (hp : p.get? c!"contours" = none) (n : Nat)
    (hn : p.get? c!"num_contours" = some (.one (.str (strNat n)))) :
    (contoursOf m'.attrs).length = n ∧ ∀ (i : Nat) (x : ℚ), (contoursOf m'.attrs)[i]? = some x → getFloat fs p (c!"contour" ++ strNat (i + 1)) none = .ok (.one (.flt x)) := by
  obtain ⟨o2, o3, e1, e2, e3, _⟩ := init_contours h
  unfold contoursStep at e2
  have h1 : ¬ Dict.has p c!"contours" = true := by unfold Dict.has; rw [hp]; simp
  have h2 : Dict.has p c!"num_contours" = true := by unfold Dict.has; rw [hn]; rfl
  have h3 : getInt fs p c!"num_contours" (some (.one (.int 2))) = .ok (.one (.int n)) := by
    refine (text_read p _ _ hn (strNat_ne_nil n) _ false).1 n ?_
    have := intOf_intText (n : Int)
    unfold intText at this
    rw [if_neg (by omega)] at this
    simpa using this
  rw [if_neg h1, if_pos h2, h3] at e2
  dsimp only [countOf] at e2
  rw [show ((n : Int)).toNat = n by simp] at e2
  split at e2
  · cases e2
  · rename_i l hl
    injection e2 with e2
    have hc : contoursOf m'.attrs = l := by
      unfold contoursOf
      rw [e3, ← e2, Dict.get?_set_self]
    have hf := mapM_forall₂ hl
    refine ⟨by rw [hc, ← hf.length_eq, List.length_range], ?_⟩
    intro i x hi
    rw [hc] at hi
    have hi' : i < l.length := (List.getElem?_eq_some_iff.mp hi).1
    have hr : (List.range n)[i]? = some i := by
      rw [List.getElem?_range (by rw [← hf.length_eq, List.length_range] at hi'; exact hi')]
    have := (List.forall₂_iff_get.mp hf).2 i (by rw [hf.length_eq]; exact hi') hi'
    have ex : l.get ⟨i, hi'⟩ = x := (List.getElem?_eq_some_iff.mp hi).2
    rw [ex] at this
    simp only [List.get_eq_getElem, List.getElem_range] at this
    unfold numAt at this
    split at this
    · rename_i v hv
      have ht : typeOf v = .flt := by
        refine asType_type (d := .one (.flt 0)) rfl (?_ : asType fs p (c!"contour" ++ strNat (i + 1)) .flt (some (.one (.flt 0))) false = .ok v)
        by_cases hs : isSet p (c!"contour" ++ strNat (i + 1)) false = true
        · rw [asType_set hs _ none]
          exact hv
        · have hs : isSet p (c!"contour" ++ strNat (i + 1)) false = false := by simpa using hs
          exfalso
          have hu := (unset (fs := fs) p (c!"contour" ++ strNat (i + 1)) .flt false (by
            unfold isSet at hs
            cases hg : p.get? (c!"contour" ++ strNat (i + 1)) with
            | none => exact Or.inl rfl
            | some v =>
              rw [hg] at hs
              right
              simp only [Bool.false_or, decide_eq_false_iff_not, ne_eq, Decidable.not_not] at hs
              exact ⟨rfl, by rw [hs]⟩)).2
          unfold getFloat at hv
          rw [hu] at hv
          cases hv
      cases v with
      | one a =>
        cases a with
        | flt y =>
          injection this with this
          rw [hv, this]
        | _ => cases ht
      | _ => cases ht
    · cases this

example : (match initParameters (fun _ => []) id [(c!"num_contours", .one (.str c!"2")), (c!"contour1", .one (.str c!"0.6")), (c!"contour2", .one (.str c!"0.7"))]
      { attrs := attrs0 0, ini := [] } with
    | .ok m => contoursOf m.attrs
    | .error _ => []) = [6 / 10, 7 / 10] := by decide +kernel

/-- **C194** For each contour there is a threshold for two-tailed limits, the one given for its number or else the one of a Gaussian. -/
theorem thresholds {frac : ℚ → ℚ} {p : Params} {m m' : MC} (h : initParameters fs frac p m = .ok m') :
    m'.maxFrac.length = (contoursOf m'.attrs).length ∧ ∀ (i : Nat) (c : ℚ) (v : V), (contoursOf m'.attrs)[i]? = some c → m'.maxFrac[i]? = some v →
      (p.get? (c!"max_frac_twotail" ++ strNat (i + 1)) = none → v = .one (.flt (frac c))) ∧
      ∀ s (x : ℚ), p.get? (c!"max_frac_twotail" ++ strNat (i + 1)) = some (.one (.str s)) → floatStr s = some x → s ≠ [] → v = .one (.flt x) := by
  obtain ⟨_, _, _, _, _, _, hf⟩ := init_contours h
  have hl := hf.length_eq
  rw [List.length_zipIdx] at hl
  refine ⟨hl.symm, ?_⟩
  intro i c v hc hv
  have hi : i < (contoursOf m'.attrs).length := (List.getElem?_eq_some_iff.mp hc).1
  have := (List.forall₂_iff_get.mp hf).2 i (by rw [List.length_zipIdx]; exact hi) (by rw [← hl]; exact hi)
  simp only [List.get_eq_getElem, List.getElem_zipIdx, Nat.zero_add] at this
  rw [(List.getElem?_eq_some_iff.mp hc).2, (List.getElem?_eq_some_iff.mp hv).2] at this
  unfold fracAt getFloat at this
  dsimp only at this
  constructor
  · intro hn
    rw [(unset p _ .flt false (Or.inl hn)).1] at this
    injection this with this
    exact this.symm
  · intro s x hs hx hne
    rw [(text_read p _ s hs hne _ false).2.1 x hx] at this
    injection this with this
    exact this.symm

/-! ## refuted -/

/-- the full statement: a list of truth values written as `T` and `F` is read as these -/
def BoolListWorks : Prop := ∀ (fs : ℚ → Str) (p : Params) (n : Str) (bs : List Bool),
  p.get? n = some (.one (.str (join [' '] (bs.map fun b => if b then c!"T" else c!"F")))) → boolList fs p n none = .ok (.lst (bs.map .bool))

/-- **C195** inifile.py:265: `bool_list` converts the words with `bool`, for which any word is true: `T F T` is read as all true. -/
theorem boolList_fails : ¬ BoolListWorks := by
  intro h
  have := h (fun _ => []) [(c!"x", .one (.str c!"T F"))] c!"x" [true, false] (by decide +kernel)
  exact absurd this (by decide +kernel)

/-- **C195 (part)** lists without `F` are read correctly -/
theorem boolList_partial (p : Params) (n : Str) (k : Nat) (h : p.get? n = some (.one (.str (join [' '] (List.replicate k c!"T"))))) :
    boolList fs p n none = .ok (.lst ((List.replicate k true).map .bool)) := by
  unfold boolList split
  rw [h]
  dsimp only
  have : getString fs p n (some (orEmpty none)) = .ok (.one (.str (join [' '] (List.replicate k c!"T")))) := by
    unfold getString asSimple isSet
    rw [h]; simp [conv, pyStr]
  rw [this]
  dsimp only
  have hs := splitWs_join (l := List.replicate k c!"T") (tail := []) (by
    intro t ht
    rw [(List.mem_replicate.mp ht).2]
    decide) (by intro c hc; cases hc)
  rw [List.append_nil] at hs
  rw [hs]
  unfold convAll
  dsimp only
  rw [mapM_texts (conv fs .bool) ((List.replicate k c!"T").map .str) ((List.replicate k true).map .bool) (by
    rw [List.map_replicate, List.map_replicate]
    clear h this hs
    induction k with
    | zero => exact .nil
    | succ k ih => exact .cons rfl ih)]

/-- the full statement: any attribute saved with `getAttr` is read back with `setAttr` -/
def SavedLists : Prop := ∀ (fs : ℚ → Str) (n : Str) (l : List ℚ), (∀ x ∈ l, floatStr (fs x) = some x) →
  asType fs [(n, .one (.str (IniFile.asIniText (toVal fs (.arr l)))))] n .arr (some (.arr l)) false = .ok (.arr l) ∧
  ∀ ws : List Str, (∀ w ∈ ws, Token w) → ws ≠ [] →
    asType fs [(n, .one (.str (IniFile.asIniText (toVal fs (.lst (ws.map .str))))))] n .list (some (.lst [])) false = .ok (.lst (ws.map .str))

/-- **C195** inifile.py:145-150, 228-232: lists and arrays are written with brackets, `contours=[0.68 0.95]`, and this can not be read. -/
theorem saved_list_fails : ¬ SavedLists := by
  intro h
  have := (h (fun _ => c!"0.5") c!"contours" [1 / 2] (by decide +kernel)).1
  exact absurd this (by decide +kernel)

/-- the full statement: settings can be given as arrays -/
def ArraySettings : Prop := ∀ (fs : ℚ → Str) (frac : ℚ → ℚ) (l : List ℚ), l ≠ [] →
  ∃ m, construct fs frac [] (some [(c!"contours", .arr l)]) none = .ok m ∧ contoursOf m.1.attrs = l

/-- **C195** inifile.py:199, 348-351: only lists and tuples are recognised; an array of contours is compared with `""` or read from its text with brackets, and either is an error. -/
theorem array_setting_fails : ¬ ArraySettings := by
  intro h
  obtain ⟨m, hm, _⟩ := h (fun _ => c!"0.5") id [1 / 2] (by decide)
  have : (construct (fun _ => c!"0.5") id [] (some [(c!"contours", .arr [1 / 2])]) none).isOk = false := by decide +kernel
  rw [hm] at this
  cases this

/-- the full statement: every documented setting has an effect -/
def SettingsUsed : Prop := ∀ (fs : ℚ → Str) (frac : ℚ → ℚ) (m : MC × Option Params),
  construct fs frac [] (some [(c!"use_effective_samples_2D", .one (.bool true))]) none = .ok m → m.1.attrs.get? c!"use_effective_samples_2D" = some (.one (.bool true))

/-- **C195** mcsamples.py:195, 343-399: the setting `use_effective_samples_2D` of analysis_defaults.ini is never read. -/
theorem effective_fails : ¬ SettingsUsed := by
  intro h
  have h1 : (construct (fun _ => []) id [] (some [(c!"use_effective_samples_2D", .one (.bool true))]) none).isOk = true := by decide +kernel
  cases hc : construct (fun _ => []) id [] (some [(c!"use_effective_samples_2D", .one (.bool true))]) none with
  | error e => rw [hc] at h1; cases h1
  | ok m =>
    have h2 := h _ _ m hc
    have h3 : (match construct (fun _ => []) id [] (some [(c!"use_effective_samples_2D", .one (.bool true))]) none with
      | .ok m => m.1.attrs.get? c!"use_effective_samples_2D"
      | .error _ => none) = some (.one (.bool false)) := by decide +kernel
    rw [hc] at h3
    dsimp only at h3
    rw [h2] at h3
    exact absurd h3 (by decide)

/-- **C195** and this holds for all settings, files and earlier states: the value is the one of before -/
theorem effective_never {frac : ℚ → ℚ} {settings : Params} {ini : Option Params} {m m' : MC} (h : updateSettings fs frac settings ini m = .ok m') :
    m'.attrs.get? c!"use_effective_samples_2D" = m.attrs.get? c!"use_effective_samples_2D" :=
  (init_attrs h).2 _ (by decide +kernel) (by decide)

example : (match updateSettings (fun _ => []) id [(c!"use_effective_samples_2D", .one (.bool true))] (some []) { attrs := attrs0 0, ini := [] } with
    | .ok m => m.attrs.get? c!"use_effective_samples_2D"
    | .error _ => none) = some (.one (.bool false)) := by decide +kernel

/-- the full statement: settings handed over are not changed -/
def CallerKept : Prop := ∀ (fs : ℚ → Str) (frac : ℚ → ℚ) (d s : Params) (r : Option ℚ) (m : MC × Option Params),
  construct fs frac d (some s) r = .ok m → m.2 = some s

/-- **C195** mcsamples.py:213-216: with the argument `ignore_rows` the dictionary of settings of the caller is changed, so that it also cuts the next samples made with it. -/
theorem caller_fails : ¬ CallerKept := by
  intro h
  have h1 : (construct (fun _ => []) id [] (some []) (some (3 / 10))).isOk = true := by decide +kernel
  cases hc : construct (fun _ => []) id [] (some []) (some (3 / 10)) with
  | error e => rw [hc] at h1; cases h1
  | ok m =>
    have h2 := h _ _ _ _ _ m hc
    have h3 : (match construct (fun _ => []) id [] (some []) (some (3 / 10)) with
      | .ok m => m.2
      | .error _ => none) = some [(c!"ignore_rows", .one (.flt (3 / 10)))] := by decide +kernel
    rw [hc] at h3
    dsimp only at h3
    rw [h2] at h3
    exact absurd h3 (by decide)

/-- **C195 (part)** without the argument they are kept -/
theorem caller_partial {frac : ℚ → ℚ} {d s : Params} {m : MC × Option Params} (h : construct fs frac d (some s) none = .ok m) : m.2 = some s := by
  unfold construct at h
  dsimp only at h
  split at h
  · cases h
  · injection h with h
    rw [← h]; rfl

/-- the full statement: settings given in the program count before those of the file -/
def ContoursGiven : Prop := ∀ (fs : ℚ → Str) (frac : ℚ → ℚ) (d s : Params) (x : ℚ) (m : MC × Option Params), s.get? c!"contours" = none →
  s.get? c!"num_contours" = some (.one (.int 1)) → s.get? c!"contour1" = some (.one (.flt x)) → construct fs frac d (some s) none = .ok m → contoursOf m.1.attrs = [x]

/-- **C195** mcsamples.py:381-385: `num_contours` and `contour1` in the settings have no effect when the file has `contours`, as the default one does. -/
theorem num_contours_fails : ¬ ContoursGiven := by
  intro h
  let d : Params := [(c!"contours", .one (.str c!"0.68 0.95"))]
  let s : Params := [(c!"num_contours", .one (.int 1)), (c!"contour1", .one (.flt (1 / 2)))]
  have h1 : (construct (fun _ => []) id d (some s) none).isOk = true := by decide +kernel
  cases hc : construct (fun _ => []) id d (some s) none with
  | error e => rw [hc] at h1; cases h1
  | ok m =>
    have h2 := h _ _ d s (1 / 2) m (by decide +kernel) (by decide +kernel) (by decide +kernel) hc
    have h3 : (match construct (fun _ => []) id d (some s) none with
      | .ok m => contoursOf m.1.attrs
      | .error _ => []) = [68 / 100, 95 / 100] := by decide +kernel
    rw [hc] at h3
    dsimp only at h3
    rw [h2] at h3
    exact absurd h3 (by decide +kernel)

/-! ## examples -/

def demoP : Params := [(c!"a", .one (.str c!"-12")), (c!"b", .one (.str c!"True")), (c!"c", .one (.str c!"1 2 30 ")), (c!"d", .one (.str [])), (c!"e(2)", .one (.str c!"7"))]

example : getInt (fun _ => []) demoP c!"a" none = .ok (.one (.int (-12))) ∧ getBool demoP c!"b" none = .ok (.one (.bool true)) ∧
    intList (fun _ => []) demoP c!"c" none = .ok (.lst [.int 1, .int 2, .int 30]) ∧ getInt (fun _ => []) demoP c!"d" (some (.one (.int 4))) = .ok (.one (.int 4)) := by decide +kernel

example : arrayInt (fun _ => []) demoP c!"e" 2 none = .ok (.one (.int 7)) ∧ arrayInt (fun _ => []) demoP c!"e" 1 none = .error (.undefined c!"e(1)") ∧
    getString (fun _ => []) demoP c!"d" none = .ok (.one (.str [])) ∧ getInt (fun _ => []) demoP c!"b" none = .error .value := by decide +kernel

def demoIni : Params := [(c!"ignore_rows", .one (.str c!"0.3")), (c!"contours", .one (.str c!"0.5 0.9 0.99")), (c!"fine_bins", .one (.str c!"512")),
  (c!"max_frac_twotail2", .one (.str c!"0.25")), (c!"no_warning_params", .one (.str c!"x y"))]

def demoMC : Except Err MC := updateSettings (fun _ => []) (fun x => 1 - x) [(c!"fine_bins", .one (.int 100)), (c!"force_twotail", .one (.bool true))] (some demoIni)
  { attrs := attrs0 0, ini := [] }

example : (match demoMC with
    | .ok m => [c!"fine_bins", c!"force_twotail", c!"contours", c!"no_warning_params"].map m.attrs.get?
    | .error _ => []) = [some (.one (.int 100)), some (.one (.bool true)), some (.arr [1 / 2, 9 / 10, 99 / 100]), some (.lst [.str c!"x", .str c!"y"])] := by decide +kernel

example : (match demoMC with
    | .ok m => some (m.ignoreLines, m.ignoreFrac, m.maxFrac)
    | .error _ => none) = some (0, 3 / 10, [.one (.flt (1 / 2)), .one (.flt (1 / 4)), .one (.flt (1 / 100))]) := by decide +kernel

example : (match construct (fun _ => []) id [] none (some 25) with
    | .ok m => some (m.1.ignoreLines, m.1.ignoreFrac)
    | .error _ => none) = some (25, 0) := by decide +kernel

example : (match construct (fun _ => []) id [(c!"num_contours", .one (.str c!"2")), (c!"contour1", .one (.str c!"0.6")), (c!"contour2", .one (.str c!"0.7"))] none none with
    | .ok m => contoursOf m.1.attrs
    | .error _ => []) = [6 / 10, 7 / 10] := by decide +kernel

end Verif.Settings
