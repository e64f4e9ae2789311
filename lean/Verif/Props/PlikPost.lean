import Mathlib.Algebra.BigOperators.Group.List.Basic
import Mathlib.Data.List.TakeDrop
import Mathlib.Tactic.Ring
import Mathlib.Tactic.Linarith
import Verif.Lemmas.Split
import Verif.Model.PlikPost

/-!
# Foreground parameters added to chains stay with their names
-/

set_option linter.unusedSectionVars false
set_option linter.unusedSimpArgs false

namespace Verif.PlikPost
open Verif.Py

/-! ### lines of best-fit files -/

theorem run_append {p : Char → Bool} {a b : Str} (ha : ∀ c ∈ a, p c = true) (hb : ∀ c, b.head? = some c → p c = false) : run p (a ++ b) = a.length := by
  unfold run
  induction a with
  | nil => cases b with
    | nil => rfl
    | cons c b => simp [hb c rfl]
  | cons x a ih =>
    have h1 : p x = true := ha x (by simp)
    rw [List.cons_append, List.takeWhile_cons, h1]
    simp only [if_true, List.length_cons]
    rw [ih fun c hc => ha c (by simp [hc])]

theorem le_run {p : Char → Bool} {a b : Str} (ha : ∀ c ∈ a, p c = true) : a.length ≤ run p (a ++ b) := by
  unfold run
  induction a with
  | nil => simp
  | cons x a ih =>
    rw [List.cons_append, List.takeWhile_cons, ha x (by simp)]
    simp only [if_true, List.length_cons]
    have := ih fun c hc => ha c (by simp [hc])
    omega

theorem down_succ (n : Nat) : down (n + 1) = (n + 1) :: down n := by
  unfold down
  rw [List.range_succ, List.map_append, List.reverse_append]
  rfl

theorem match_ws {r : List Atom} {a b : Str} {g : List Str} (ha : Blank a) (hne : a ≠ []) (hb : ∀ c, b.head? = some c → isWs c = false) (h : matchAt r b = some g) :
    matchAt (.ws :: r) (a ++ b) = some g := by
  unfold matchAt
  rw [run_append ha hb]
  obtain ⟨n, hn⟩ : ∃ n, a.length = n + 1 := ⟨a.length - 1, by have := List.length_pos_of_ne_nil hne; omega⟩
  rw [hn, down_succ, List.findSome?_cons, ← hn, List.drop_left, h]

theorem match_ws_none {r : List Atom} {b : Str} (hb : ∀ c, b.head? = some c → isWs c = false) : matchAt (.ws :: r) b = none := by
  unfold matchAt
  have := run_append (a := []) (p := isWs) (by simp) hb
  simp only [List.nil_append, List.length_nil] at this
  rw [this]
  rfl

theorem match_ws_end {b : Str} (c : Char) (hc : isWs c = true) : matchAt [.ws] (c :: b) = some [] := by
  have h : matchAt [Atom.ws] (c :: b) = (down (run isWs (c :: b))).findSome? fun k => matchAt [] ((c :: b).drop k) := by rw [matchAt]
  rw [h]
  obtain ⟨n, hn⟩ : ∃ n, run isWs (c :: b) = n + 1 := ⟨(b.takeWhile isWs).length, by simp [run, hc]⟩
  rw [hn, down_succ, List.findSome?_cons, matchAt]

theorem match_digits {r : List Atom} {a b : Str} {g : List Str} (ha : ∀ c ∈ a, Char.isDigit c = true) (hne : a ≠ []) (hb : ∀ c, b.head? = some c → Char.isDigit c = false)
    (h : matchAt r b = some g) : matchAt (.digits :: r) (a ++ b) = some (a :: g) := by
  unfold matchAt
  rw [run_append ha hb]
  obtain ⟨n, hn⟩ : ∃ n, a.length = n + 1 := ⟨a.length - 1, by have := List.length_pos_of_ne_nil hne; omega⟩
  rw [hn, down_succ, List.findSome?_cons, ← hn, List.drop_left, h, List.take_left]
  rfl

theorem match_lazy {r : List Atom} {t b : Str} {g : List Str} (ht : Token t) (h : matchAt (.ws :: r) b = some g) :
    matchAt (.lazy :: .ws :: r) (t ++ b) = some (t :: g) := by
  rw [matchAt, List.findSome?_eq_some_iff]
  have hl : t.length ≤ run (fun c => decide (c ≠ '\n')) (t ++ b) := le_run fun c hc => by
    have := ht.2 c hc
    simp only [decide_eq_true_eq]
    rintro rfl
    exact absurd this (by decide)
  have hpos := List.length_pos_of_ne_nil ht.1
  generalize hm : run (fun c => decide (c ≠ '\n')) (t ++ b) = m at hl
  refine ⟨up (t.length - 1), t.length, (up m).drop t.length, ?_, ?_, ?_⟩
  · have h1 : up m = (up m).take (t.length - 1) ++ (up m).drop (t.length - 1) := (List.take_append_drop _ _).symm
    have h2 : (up m).take (t.length - 1) = up (t.length - 1) := by
      unfold up
      rw [← List.map_take, List.take_range, Nat.min_eq_left (by omega)]
    have hlen : t.length - 1 < (up m).length := by simp only [up, List.length_map, List.length_range]; omega
    rw [h2, List.drop_eq_getElem_cons hlen] at h1
    have h3 : (up m)[t.length - 1] = t.length := by simp only [up, List.getElem_map, List.getElem_range]; omega
    rw [h3] at h1
    have h4 : t.length - 1 + 1 = t.length := by omega
    rw [h4] at h1
    exact h1
  · rw [List.drop_left, h, List.take_left]
    rfl
  · intro k hk
    have hk2 : k < t.length := by
      simp only [up, List.mem_map, List.mem_range] at hk
      obtain ⟨x, h1, h2⟩ := hk
      omega
    rw [match_ws_none]
    · rfl
    · intro c hc
      rw [List.drop_append_of_le_length hk2.le, List.drop_eq_getElem_cons hk2] at hc
      simp only [List.cons_append, List.head?_cons, Option.some.injEq] at hc
      exact ht.2 c (hc ▸ List.getElem_mem hk2)

/-- An entry of a best-fit file: blanks, a number, blanks, a value, blanks, a name, then a blank or the end of the line. -/
structure Entry (F : Type) where
  lead : Str
  num : Str
  gap1 : Str
  val : Str
  gap2 : Str
  name : Str
  sep : Char
  rest : Str
  x : F

variable {F : Type}

def Entry.text (e : Entry F) : Str := e.lead ++ (e.num ++ (e.gap1 ++ (e.val ++ (e.gap2 ++ (e.name ++ e.sep :: e.rest)))))

/-- What an entry is made of. -/
structure Entry.Ok (fl : Str → Option F) (e : Entry F) : Prop where
  lead : Blank e.lead ∧ e.lead ≠ []
  num : e.num ≠ [] ∧ ∀ c ∈ e.num, Char.isDigit c = true
  gap1 : Blank e.gap1 ∧ e.gap1 ≠ []
  val : Token e.val
  gap2 : Blank e.gap2 ∧ e.gap2 ≠ []
  name : Token e.name
  sep : isWs e.sep = true
  x : fl e.val = some e.x

theorem head_blank {a b : Str} (ha : Blank a) (hne : a ≠ []) : ∀ c, (a ++ b).head? = some c → isWs c = true := by
  intro c hc
  cases a with
  | nil => exact absurd rfl hne
  | cons x a =>
    simp only [List.cons_append, List.head?_cons, Option.some.injEq] at hc
    exact ha c (by simp [hc])

theorem head_token {a b : Str} (ha : Token a) : ∀ c, (a ++ b).head? = some c → isWs c = false := by
  intro c hc
  cases a with
  | nil => exact absurd rfl ha.1
  | cons x a =>
    simp only [List.cons_append, List.head?_cons, Option.some.injEq] at hc
    exact ha.2 c (by simp [hc])

theorem digit_not_ws (c : Char) (h : Char.isDigit c = true) : isWs c = false := by
  cases hw : isWs c with
  | false => rfl
  | true =>
    exfalso
    simp only [Char.isDigit, Bool.and_eq_true, decide_eq_true_eq] at h
    have h1 : 48 ≤ c.toNat := h.1
    have h2 : c.toNat ≤ 57 := h.2
    simp only [isWs, Bool.or_eq_true, Bool.and_eq_true, decide_eq_true_eq, beq_iff_eq] at hw
    omega

theorem ws_not_digit (c : Char) (h : isWs c = true) : Char.isDigit c = false := by
  cases hd : Char.isDigit c with
  | false => rfl
  | true => rw [digit_not_ws c hd] at h; exact absurd h (by decide)

theorem match_entry (fl : Str → Option F) (e : Entry F) (h : e.Ok fl) : matchAt entryPat e.text = some [e.num, e.val, e.name] := by
  have h6 := match_ws_end (b := e.rest) e.sep h.sep
  have h5 := match_lazy h.name h6
  have h4 := match_ws h.gap2.1 h.gap2.2 (head_token h.name) h5
  have h3 := match_lazy h.val h4
  have h2 := match_ws h.gap1.1 h.gap1.2 (head_token h.val) h3
  have h1 := match_digits h.num.2 h.num.1 (fun c hc => ws_not_digit c (head_blank h.gap1.1 h.gap1.2 c hc)) h2
  refine match_ws h.lead.1 h.lead.2 ?_ h1
  refine head_token (a := e.num) ⟨h.num.1, fun c hc => digit_not_ws c (h.num.2 c hc)⟩

/-- The regular expression finds number, value and name of an entry, whatever blanks separate them and whatever label follows. -/
theorem search_entry (fl : Str → Option F) (e : Entry F) (h : e.Ok fl) : search entryPat e.text = some [e.num, e.val, e.name] := by
  unfold search
  have : e.text.tails = e.text :: e.text.tails.tail := by cases e.text <;> rfl
  rw [this, List.findSome?_cons, match_entry fl e h]

/-- lines of a file: entries and others -/
inductive Item (F : Type) where
  | entry (e : Entry F)
  | other (l : Str)

def Item.text : Item F → Str
  | .entry e => e.text
  | .other l => l

def Item.Ok (fl : Str → Option F) : Item F → Prop
  | .entry e => e.Ok fl
  | .other l => search entryPat l = none

def Item.pair : Item F → Option (Str × F)
  | .entry e => some (e.name, e.x)
  | .other _ => none

theorem parseMin_fold (fl : Str → Option F) (items : List (Item F)) (h : ∀ i ∈ items, i.Ok fl) (d : Dict Str F) :
    parseMin fl (items.map Item.text) d = .ok ((items.filterMap Item.pair).foldl (fun d p => d.set p.1 p.2) d) := by
  induction items generalizing d with
  | nil => rfl
  | cons i items ih =>
    have hi := h i (by simp)
    have ih := ih fun j hj => h j (by simp [hj])
    rw [List.map_cons, parseMin]
    cases i with
    | entry e =>
      have : minLine fl d (Item.text (.entry e : Item F)) = .ok (d.set e.name e.x) := by
        unfold minLine
        rw [Item.text, search_entry fl e hi]
        simp only [hi.x]
      rw [this]
      simp only
      rw [ih]
      rfl
    | other l =>
      have : minLine fl d (Item.text (.other l : Item F)) = .ok d := by
        unfold minLine
        rw [Item.text, (show search entryPat l = none from hi)]
      rw [this]
      simp only
      rw [ih]
      rfl

theorem foldl_set_get (ps : List (Str × F)) (d : Dict Str F) (n : Str) :
    (ps.foldl (fun d p => d.set p.1 p.2) d).get? n = match ps.reverse.find? (fun p => p.1 = n) with
      | some p => some p.2
      | none => d.get? n := by
  induction ps generalizing d with
  | nil => rfl
  | cons p ps ih =>
    rw [List.foldl_cons, ih, List.reverse_cons, List.find?_append]
    cases hf : ps.reverse.find? (fun p => p.1 = n) with
    | some q => simp
    | none =>
      simp only [Option.none_or]
      by_cases hp : p.1 = n
      · subst hp
        simp [Dict.get?_set_self]
      · rw [List.find?_cons]
        simp [hp, Dict.get?_set_of_ne d p.2 (Ne.symm hp)]

/-- The value of a parameter is that of the last entry with its name; other lines do not matter. -/
theorem parseMin_spec (fl : Str → Option F) (items : List (Item F)) (h : ∀ i ∈ items, i.Ok fl) :
    ∃ d, parseMin fl (items.map Item.text) [] = .ok d ∧
      ∀ n, d.get? n = ((items.filterMap Item.pair).reverse.find? (fun p => p.1 = n)).map Prod.snd := by
  refine ⟨_, parseMin_fold fl items h [], fun n => ?_⟩
  rw [foldl_set_get]
  cases (items.filterMap Item.pair).reverse.find? (fun p => p.1 = n) <;> rfl

/-- Example: a line of a best-fit file. -/
example : search entryPat c!"   12  0.50E+00   A_planck   A_{Pl}\n" = some [c!"12", c!"0.50E+00", c!"A_planck"] := by decide +kernel

/-! ### names and columns -/

theorem splitWs_rstrip (l : Str) : strip (rstrip l) = strip l := by
  have key : ∀ a : Str, strip (rstrip a.reverse) = strip a.reverse := by
    intro a
    induction a with
    | nil => rfl
    | cons c a ih =>
      rw [List.reverse_cons]
      cases hc : isWs c with
      | true => rw [rstrip_append_ws _ _ hc, strip_append_ws _ _ hc, ih]
      | false => rw [rstrip_eq_self]; intro x hx; simp at hx; rw [← hx]; exact hc
  simpa using key l.reverse

theorem paraNames_rstrip (ls : List Str) : paraNames (ls.map rstrip) = paraNames ls := by
  unfold paraNames
  rw [List.filterMap_map]
  congr 1
  funext l
  simp only [Function.comp, splitWs_rstrip]

theorem paraNames_append (a b : List Str) : paraNames (a ++ b) = paraNames a ++ paraNames b := List.filterMap_append

/-- the names of the new parameters -/
def newPars : List Str := [c!"f2000_143*", c!"f2000_x*", c!"f2000_217*"]

theorem paraNames_new : paraNames newLines = newPars := by decide +kernel

theorem takeWhile_stop {a : List Str} {c : Str} {b : List Str} (ha : ∀ l ∈ a, isChi2 l = false) (hc : isChi2 c = true) : beforeNew (a ++ c :: b) = a := by
  unfold beforeNew
  induction a with
  | nil => simp [List.takeWhile_cons, hc]
  | cons x a ih =>
    rw [List.cons_append, List.takeWhile_cons]
    simp [ha x (by simp), ih fun l hl => ha l (by simp [hl])]

theorem insertAt_spec {a : List Str} {c : Str} {b : List Str} (ha : ∀ l ∈ a, isChi2 l = false) (hc : isChi2 c = true) : insertAt (a ++ c :: b) = .ok a.length := by
  unfold insertAt
  have : (a ++ c :: b).findIdx? isChi2 = some a.length := by
    rw [List.findIdx?_append]
    have h1 : a.findIdx? isChi2 = none := by
      rw [List.findIdx?_eq_none_iff]
      exact ha
    rw [h1]
    simp [List.findIdx?_cons, hc]
  rw [this]

/-- The three parameters are put before the first chi squared; all names keep their order. -/
theorem newNames_spec {a : List Str} {c : Str} {b : List Str} (ha : ∀ l ∈ a, isChi2 l = false) (hc : isChi2 c = true) :
    ∃ ns, newNames (a ++ c :: b) = .ok ns ∧ paraNames ns = paraNames a ++ newPars ++ paraNames (c :: b) := by
  refine ⟨a.map rstrip ++ newLines ++ (c :: b).map rstrip, ?_, ?_⟩
  · unfold newNames
    rw [insertAt_spec ha hc]
    simp only
    rw [takeWhile_stop ha hc, List.drop_left]
  · rw [paraNames_append, paraNames_append, paraNames_rstrip, paraNames_rstrip, paraNames_new]

variable [Field F]

/-- Weight and likelihood stay; every parameter keeps its value, and the new parameters get the three temperature foregrounds. -/
theorem newRow_spec (a b : List Str) (ha : ∀ l ∈ a, (splitWs (strip l)).head?.isSome) (llp1 : F) (row : List F) (hr : row.length = 2 + (paraNames (a ++ b)).length) (res : Nat → Nat → F) :
    (newRow a.length llp1 row res).take 2 = row.take 2 ∧
    (paraNames a ++ newPars ++ paraNames b).zip ((newRow a.length llp1 row res).drop 2) =
      ((paraNames (a ++ b)).zip (row.drop 2)).take a.length ++ newPars.zip [res 1 1 * llp1, res 1 2 * llp1, res 2 2 * llp1] ++
        ((paraNames (a ++ b)).zip (row.drop 2)).drop a.length := by
  have hla : (paraNames a).length = a.length := by
    clear hr
    induction a with
    | nil => rfl
    | cons l a ih =>
      have h1 := ha l (by simp)
      obtain ⟨w, hw⟩ := Option.isSome_iff_exists.mp h1
      unfold paraNames at ih ⊢
      rw [List.filterMap_cons, hw]
      simp only [List.length_cons]
      rw [ih fun x hx => ha x (by simp [hx])]
  rw [paraNames_append, List.length_append, hla] at hr
  obtain ⟨w, l, rest, rfl⟩ : ∃ w l rest, row = w :: l :: rest := by
    match row, hr with
    | w :: l :: rest, _ => exact ⟨w, l, rest, rfl⟩
    | [w], hr => simp at hr; omega
    | [], hr => simp at hr; omega
  simp only [List.length_cons] at hr
  have hrest : a.length ≤ rest.length := by omega
  constructor
  · simp [newRow]
  · have h1 : (newRow a.length llp1 (w :: l :: rest) res).drop 2 = rest.take a.length ++ [res 1 1 * llp1, res 1 2 * llp1, res 2 2 * llp1] ++ rest.drop a.length := by
      simp [newRow]
    have h2 : (w :: l :: rest).drop 2 = rest := rfl
    rw [h1, h2, paraNames_append]
    have ht : (rest.take a.length).length = (paraNames a).length := by rw [hla, List.length_take, Nat.min_eq_left hrest]
    have h3 : (paraNames a ++ paraNames b).zip rest = (paraNames a).zip (rest.take a.length) ++ (paraNames b).zip (rest.drop a.length) := by
      conv_lhs => rw [← List.take_append_drop a.length rest]
      rw [List.zip_append ht.symm]
    have h4 : ((paraNames a).zip (rest.take a.length)).length = a.length := by rw [List.length_zip, ht, hla, Nat.min_self]
    have h5 : ((paraNames a).zip (rest.take a.length) ++ (paraNames b).zip (rest.drop a.length)).take a.length = (paraNames a).zip (rest.take a.length) := List.take_left' h4
    have h6 : ((paraNames a).zip (rest.take a.length) ++ (paraNames b).zip (rest.drop a.length)).drop a.length = (paraNames b).zip (rest.drop a.length) := List.drop_left' h4
    rw [h3, h5, h6, List.zip_append, List.zip_append ht.symm]
    simp only [List.length_append, ht]
    rfl

theorem lookup_mid {α β : Type} [BEq α] [LawfulBEq α] (xs ys zs : List (α × β)) (n : α) (h : ∀ p ∈ ys, p.1 ≠ n) : (xs ++ ys ++ zs).lookup n = (xs ++ zs).lookup n := by
  have key : ∀ zs : List (α × β), (ys ++ zs).lookup n = zs.lookup n := by
    intro zs
    induction ys with
    | nil => rfl
    | cons y ys ih =>
      obtain ⟨k, v⟩ := y
      have h1 : (n == k) = false := by
        have := h (k, v) (by simp)
        simp only [beq_eq_false_iff_ne, ne_eq]
        exact fun e => this e.symm
      rw [List.cons_append, List.lookup_cons, h1]
      exact ih fun p hp => h p (by simp [hp])
  rw [List.append_assoc]
  induction xs with
  | nil => exact key zs
  | cons x xs ih =>
    obtain ⟨k, v⟩ := x
    rw [List.cons_append, List.cons_append, List.lookup_cons, List.lookup_cons, ih]

/-- In the new chain with the new names every old parameter has its old value. -/
theorem newRow_old (a b : List Str) (ha : ∀ l ∈ a, (splitWs (strip l)).head?.isSome) (llp1 : F) (row : List F) (hr : row.length = 2 + (paraNames (a ++ b)).length) (res : Nat → Nat → F)
    (n : Str) (hn : n ∉ newPars) :
    ((paraNames a ++ newPars ++ paraNames b).zip ((newRow a.length llp1 row res).drop 2)).lookup n = ((paraNames (a ++ b)).zip (row.drop 2)).lookup n := by
  rw [(newRow_spec a b ha llp1 row hr res).2, lookup_mid, List.take_append_drop]
  intro p hp e
  exact hn (e ▸ (List.of_mem_zip hp).1)

/-- Example. -/
example : newRow 1 (2 : ℚ) [1, 10, 5, 7] (fun a b => (a * 10 + b : ℕ)) = [1, 10, 5, 22, 24, 44, 7] ∧
    newNames [c!"H0 H_0\n", c!"chi2_x* c\n"] = .ok ([c!"H0 H_0"] ++ newLines ++ [c!"chi2_x* c"]) := by decide +kernel

/-! ### values of the parameters of the components -/

theorem chainCols_fold (kps : List (Str × Str)) (cpf : List Str) (hk : (kps.map Prod.fst).Nodup) (d : Dict Str Nat) (k : Str) :
    (kps.foldl (fun d kp => if cpf.contains kp.2 then d.set kp.1 (cpf.idxOf kp.2) else d) d).get? k =
      match kps.lookup k with
      | some n => if cpf.contains n then some (cpf.idxOf n) else d.get? k
      | none => d.get? k := by
  induction kps generalizing d with
  | nil => rfl
  | cons kp kps ih =>
    obtain ⟨k1, n1⟩ := kp
    simp only [List.map_cons, List.nodup_cons] at hk
    rw [List.foldl_cons, ih hk.2, List.lookup_cons]
    by_cases hkk : k = k1
    · subst hkk
      have hno : kps.lookup k = none := by
        rw [List.lookup_eq_none_iff]
        intro p hp
        simp only [beq_eq_false_iff_ne, ne_eq, bne_iff_ne]
        intro e
        exact hk.1 (List.mem_map.mpr ⟨p, hp, e.symm⟩)
      rw [hno]
      simp only [beq_self_eq_true]
      split_ifs
      · exact Dict.get?_set_self _ _ _
      · rfl
    · have h1 : (k == k1) = false := by simpa using hkk
      have h2 : (if cpf.contains n1 = true then d.set k1 (cpf.idxOf n1) else d).get? k = d.get? k := by
        split_ifs
        · exact Dict.get?_set_of_ne d _ hkk
        · rfl
      simp only [h1, h2]

/-- A parameter of a component that is in the chain gets the value of the column of its name. -/
theorem paramOf_chain (keys ppf cpf : List Str) (hk : ((keys.zip ppf).map Prod.fst).Nodup) (rdc : Dict Str (Option F)) (row : List F) (hr : row.length = 2 + cpf.length)
    (k n : Str) (hkn : (keys.zip ppf).lookup k = some n) (hn : n ∈ cpf) :
    ∃ x, (cpf.zip (row.drop 2)).lookup n = some x ∧ paramOf (chainCols keys ppf cpf) rdc row k = .ok x := by
  have h1 : (chainCols keys ppf cpf).get? k = some (cpf.idxOf n) := by
    unfold chainCols
    rw [chainCols_fold _ _ hk, hkn]
    simp [hn]
  have hlt := List.idxOf_lt_length_of_mem hn
  have hj : cpf.idxOf n + 2 < row.length := by omega
  refine ⟨row[cpf.idxOf n + 2], ?_, ?_⟩
  · have key : ∀ (cp : List Str) (xs : List F), n ∈ cp → xs.length = cp.length → (cp.zip xs).lookup n = xs[cp.idxOf n]? := by
      intro cp
      induction cp with
      | nil => intro xs h; exact absurd h (by simp)
      | cons c cp ih =>
        intro xs h hx
        cases xs with
        | nil => simp at hx
        | cons x xs =>
          rw [List.zip_cons_cons, List.lookup_cons, List.idxOf_cons]
          by_cases hc : n = c
          · subst hc; simp
          · have h2 : (n == c) = false := by simpa using hc
            have h3 : (c == n) = false := by simpa using Ne.symm hc
            simp only [h2, h3, cond_false]
            rw [ih xs (by rcases List.mem_cons.mp h with h | h; exact absurd h hc; exact h) (by simpa using hx)]
            simp
    rw [key cpf _ hn (by rw [List.length_drop]; omega), List.getElem?_drop, Nat.add_comm 2, List.getElem?_eq_getElem hj]
  · unfold paramOf
    rw [h1]
    simp only
    rw [List.getElem?_eq_getElem hj]

/-- A parameter that is not in the chain gets its fixed value. -/
theorem paramOf_fixed (keys ppf cpf : List Str) (hk : ((keys.zip ppf).map Prod.fst).Nodup) (rdc : Dict Str (Option F)) (row : List F)
    (k n : Str) (x : F) (hkn : (keys.zip ppf).lookup k = some n) (hn : n ∉ cpf) (hx : rdc.get? k = some (some x)) :
    paramOf (chainCols keys ppf cpf) rdc row k = .ok x := by
  have h1 : (chainCols keys ppf cpf).get? k = none := by
    unfold chainCols
    rw [chainCols_fold _ _ hk, hkn]
    simp [hn, Dict.get?]
  unfold paramOf
  rw [h1, hx]

/-- The fixed values of a best-fit file: every parameter by its name, or the file is refused. -/
theorem fixedVals_spec (kps : List (Str × Str)) (hk : (kps.map Prod.fst).Nodup) (dc : Dict Str F) (r : Dict Str (Option F)) :
    ((∀ kp ∈ kps, (dc.get? kp.2).isSome) → ∃ rdc, fixedVals kps dc r = .ok rdc ∧ (∀ k n, kps.lookup k = some n → rdc.get? k = some (dc.get? n)) ∧ ∀ k, kps.lookup k = none → rdc.get? k = r.get? k) ∧
    ((∃ kp ∈ kps, dc.get? kp.2 = none) → fixedVals kps dc r = .error .key) := by
  induction kps generalizing r with
  | nil =>
    constructor
    · intro _
      exact ⟨r, rfl, fun k n h => by simp at h, fun k _ => rfl⟩
    · rintro ⟨kp, h, _⟩
      simp at h
  | cons kp kps ih =>
    obtain ⟨k1, n1⟩ := kp
    simp only [List.map_cons, List.nodup_cons] at hk
    constructor
    · intro h
      obtain ⟨x, hx⟩ := Option.isSome_iff_exists.mp (h (k1, n1) (by simp))
      obtain ⟨rdc, h1, h2, h3⟩ := (ih hk.2 (r.set k1 (some x))).1 fun p hp => h p (by simp [hp])
      refine ⟨rdc, ?_, ?_, ?_⟩
      · rw [fixedVals, hx]
        exact h1
      · intro k n hkn
        rw [List.lookup_cons] at hkn
        by_cases hkk : k = k1
        · subst hkk
          simp only [beq_self_eq_true, Option.some.injEq] at hkn
          subst hkn
          rw [h3, Dict.get?_set_self, hx]
          rw [List.lookup_eq_none_iff]
          intro p hp
          simp only [beq_eq_false_iff_ne, ne_eq, bne_iff_ne]
          intro e
          exact hk.1 (List.mem_map.mpr ⟨p, hp, e.symm⟩)
        · have : (k == k1) = false := by simpa using hkk
          rw [this] at hkn
          exact h2 k n hkn
      · intro k hkn
        rw [List.lookup_cons] at hkn
        by_cases hkk : k = k1
        · subst hkk; simp at hkn
        · have : (k == k1) = false := by simpa using hkk
          rw [this] at hkn
          rw [h3 k hkn, Dict.get?_set_of_ne r _ hkk]
    · rintro ⟨kp, hm, hnone⟩
      rw [fixedVals]
      rcases List.mem_cons.mp hm with rfl | hm
      · simp only [hnone]
      · cases hx : dc.get? n1 with
        | none => rfl
        | some x => exact (ih hk.2 _).2 ⟨kp, hm, hnone⟩

example : (fixedVals [(c!"A_x", c!"ax")] [(c!"ax", (3 : ℚ))] []).toOption = some [(c!"A_x", some 3)] ∧ (fixedVals [(c!"A_x", c!"ax")] [(c!"bx", (3 : ℚ))] []).toOption = none := by decide +kernel

theorem total_fold (ldc : Dict Str Nat) (rdc : Dict Str (Option F)) (row : List F) (cs : List (Comp F × List F)) (h : ∀ c ∈ cs, paramsOf ldc rdc row c.1.varpar = .ok c.2) (res : Nat → Nat → F) :
    ∃ r, total ldc rdc row (cs.map Prod.fst) res = .ok r ∧ ∀ a b, r a b = res a b + (cs.map fun c => c.1.eval c.2 a b).sum := by
  induction cs generalizing res with
  | nil => exact ⟨res, rfl, fun a b => by simp⟩
  | cons c cs ih =>
    obtain ⟨r, h1, h2⟩ := ih (fun d hd => h d (by simp [hd])) fun a b => res a b + c.1.eval c.2 a b
    refine ⟨r, ?_, ?_⟩
    · rw [List.map_cons, total, h c (by simp)]
      exact h1
    · intro a b
      rw [h2, List.map_cons, List.sum_cons, add_assoc]

/-- The foreground of a row is the sum of the components at the parameters of the row. -/
theorem total_spec (ldc : Dict Str Nat) (rdc : Dict Str (Option F)) (row : List F) (cs : List (Comp F × List F)) (h : ∀ c ∈ cs, paramsOf ldc rdc row c.1.varpar = .ok c.2) :
    ∃ r, total ldc rdc row (cs.map Prod.fst) (fun _ _ => 0) = .ok r ∧ ∀ a b, r a b = (cs.map fun c => c.1.eval c.2 a b).sum := by
  obtain ⟨r, h1, h2⟩ := total_fold ldc rdc row cs h fun _ _ => 0
  exact ⟨r, h1, fun a b => by rw [h2, zero_add]⟩

example : (total [(c!"A", 1)] [] [1, 1, 5, (7 : ℚ)] [⟨[c!"A"], fun xs a b => xs.sum + a + b⟩, ⟨[], fun _ a _ => 10 * a⟩] (fun _ _ => 0)).toOption.map (fun r => r 1 2) = some (10 + 10) := by decide +kernel

/-- The new chain has one row for every row, in order. -/
theorem newRows_spec (ib : Nat) (llp1 : F) (ldc : Dict Str Nat) (rdc : Dict Str (Option F)) (cs : List (Comp F)) (rows out : List (List F)) (h : newRows ib llp1 ldc rdc cs rows = .ok out) :
    List.Forall₂ (fun row new => ∃ res, total ldc rdc row cs (fun _ _ => 0) = .ok res ∧ new = newRow ib llp1 row res) rows out := by
  induction rows generalizing out with
  | nil =>
    simp only [newRows, Except.ok.injEq] at h
    subst h
    exact List.Forall₂.nil
  | cons row rows ih =>
    rw [newRows] at h
    cases h1 : total ldc rdc row cs (fun _ _ => 0) with
    | error e => rw [h1] at h; exact absurd h (by simp)
    | ok res =>
      rw [h1] at h
      simp only at h
      cases h2 : newRows ib llp1 ldc rdc cs rows with
      | error e => rw [h2] at h; exact absurd h (by simp)
      | ok o =>
        rw [h2] at h
        simp only [Except.ok.injEq] at h
        subst h
        exact List.Forall₂.cons ⟨res, h1, rfl⟩ (ih o h2)

example : (newRows 0 2 [(c!"A", 0)] [] [⟨[c!"A"], fun xs a b => xs.sum + a + (b : ℚ)⟩] [[5, 7, 8]]).toOption = some [[5, 7, 20, 22, 24, 8]] := by decide +kernel

/-- Example: a component with one parameter from the chain and one fixed. -/
example : newChain 1 (1 : ℚ) (chainCols [c!"A", c!"B"] [c!"a", c!"b"] [c!"a", c!"chi2_x"]) (fixedRanges [(c!"A", c!"a"), (c!"B", c!"b")] [(c!"b", 3)])
    [⟨[c!"A", c!"B"], fun xs _ _ => xs.sum⟩] [[1, 2, 10, 20], [1, 3, 11, 21]] = .ok [[1, 2, 10, 13, 13, 13, 20], [1, 3, 11, 14, 14, 14, 21]] := by decide +kernel

end Verif.PlikPost
