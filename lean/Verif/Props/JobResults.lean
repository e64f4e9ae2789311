import Verif.Model.JobResults

/-!
# Results of a run held by its job item (C255, C256)
-/

namespace Verif.JobResults
open Verif.Py
open Verif.GridFiles (FS FileD)
open Verif.JobStatus (Job nonEmpty getDistExists loadLines Conv)

/-! ## The best fit -/

/-- there is a best fit in the file: it is there, not empty and can be read -/
def HasBest (fs : FS) (j : Job) (b : BestFit.Best ℚ) : Prop :=
  ∃ f, fs.get? (j.chainRoot ++ c!".minimum") = some f ∧ f.text ≠ [] ∧ BestFit.load false (fileIter (ParamNames.dropBOM f.text)) = .ok b

/-- there is no best fit: no file or an empty one -/
def NoBest (fs : FS) (j : Job) : Prop := ∀ f, fs.get? (j.chainRoot ++ c!".minimum") = some f → f.text = []

theorem nonEmpty_false (fs : FS) (p : Str) : nonEmpty fs p = false ↔ ∀ f, fs.get? p = some f → f.text = [] := by
  unfold nonEmpty
  cases h : fs.get? p with
  | none => simp
  | some f => simp

theorem nonEmpty_true (fs : FS) (p : Str) : nonEmpty fs p = true ↔ ∃ f, fs.get? p = some f ∧ f.text ≠ [] := by
  unfold nonEmpty
  cases h : fs.get? p with
  | none => simp
  | some f => simp

/-- **C255**: the best fit of a run is that of its file; an empty or missing file means that there is none -/
theorem bestfit_spec (fs : FS) (j : Job) :
    (∀ b, chainBestfit fs j = .ok (some b) ↔ HasBest fs j b) ∧ (chainBestfit fs j = .ok none ↔ NoBest fs j) := by
  unfold HasBest NoBest
  cases h : nonEmpty fs (j.chainRoot ++ c!".minimum") with
  | false =>
    have h2 := (nonEmpty_false _ _).mp h
    have e : chainBestfit fs j = .ok none := by unfold chainBestfit; rw [h]; rfl
    rw [e]
    refine ⟨fun b => ⟨fun hh => by simp at hh, ?_⟩, ⟨fun _ => h2, fun _ => rfl⟩⟩
    rintro ⟨f, hf, hne, -⟩
    exact absurd (h2 f hf) hne
  | true =>
    obtain ⟨f, hf, hne⟩ := (nonEmpty_true _ _).mp h
    have e : chainBestfit fs j = (readBest fs (j.chainRoot ++ c!".minimum")).map some := by unfold chainBestfit; rw [if_pos h]
    have e2 : readBest fs (j.chainRoot ++ c!".minimum") = (match (BestFit.load false (fileIter (ParamNames.dropBOM f.text)) : Except _ (BestFit.Best ℚ)) with
        | .ok b => .ok b | .error e => .error (.best e)) := by
      unfold readBest linesOf
      rw [hf]
      rfl
    rw [e, e2]
    constructor
    · intro b
      constructor
      · intro hh
        refine ⟨f, hf, hne, ?_⟩
        cases hl : (BestFit.load false (fileIter (ParamNames.dropBOM f.text)) : Except _ (BestFit.Best ℚ)) with
        | error e => rw [hl] at hh; cases hh
        | ok b' => rw [hl] at hh; simp only [Except.map] at hh; injection hh with hh; injection hh with hh; rw [hh]
      · rintro ⟨f', hf', -, hl⟩
        rw [hf] at hf'
        injection hf' with hf'
        subst hf'
        rw [hl]
        rfl
    · constructor
      · intro hh
        cases hl : (BestFit.load false (fileIter (ParamNames.dropBOM f.text)) : Except _ (BestFit.Best ℚ)) with
        | error e => rw [hl] at hh; cases hh
        | ok b' => rw [hl] at hh; simp only [Except.map] at hh; injection hh with hh; cases hh
      · intro hn
        exact absurd (hn f hf) hne

/-- **C255**: a minimization has converged exactly if its best fit can be read and its likelihood is not a mark of failure -/
theorem minimumConverged_spec (fs : FS) (j : Job) :
    (minimumConverged fs j = .ok true ↔ ∃ b, HasBest fs j b ∧ b.logLike < 10 ^ 29) ∧
    (minimumConverged fs j = .ok false ↔ NoBest fs j ∨ ∃ b, HasBest fs j b ∧ 10 ^ 29 ≤ b.logLike) ∧
    (minimumExists fs j = true ↔ ¬ NoBest fs j) := by
  obtain ⟨h1, h2⟩ := bestfit_spec fs j
  refine ⟨?_, ?_, ?_⟩
  · cases hc : chainBestfit fs j with
    | error e =>
      have e : minimumConverged fs j = .error e := by unfold minimumConverged; rw [hc]; rfl
      rw [e]
      constructor
      · intro h; cases h
      · rintro ⟨b, hb, -⟩
        rw [(h1 b).mpr hb] at hc; cases hc
    | ok o =>
      cases o with
      | none =>
        have e : minimumConverged fs j = .ok false := by unfold minimumConverged; rw [hc]; rfl
        rw [e]
        constructor
        · intro h; simp at h
        · rintro ⟨b, hb, -⟩
          rw [(h1 b).mpr hb] at hc; simp at hc
      | some b =>
        have e : minimumConverged fs j = .ok (decide (b.logLike < 10 ^ 29)) := by unfold minimumConverged; rw [hc]; rfl
        rw [e]
        constructor
        · intro h
          injection h with h
          exact ⟨b, (h1 b).mp hc, of_decide_eq_true h⟩
        · rintro ⟨b', hb, hl⟩
          have := (h1 b').mpr hb
          rw [hc] at this
          injection this with this
          injection this with this
          subst this
          rw [decide_eq_true hl]
  · cases hc : chainBestfit fs j with
    | error e =>
      have e : minimumConverged fs j = .error e := by unfold minimumConverged; rw [hc]; rfl
      rw [e]
      constructor
      · intro h; cases h
      · rintro (hn | ⟨b, hb, -⟩)
        · rw [h2.mpr hn] at hc; cases hc
        · rw [(h1 b).mpr hb] at hc; cases hc
    | ok o =>
      cases o with
      | none =>
        have e : minimumConverged fs j = .ok false := by unfold minimumConverged; rw [hc]; rfl
        rw [e]
        exact ⟨fun _ => .inl (h2.mp hc), fun _ => rfl⟩
      | some b =>
        have e : minimumConverged fs j = .ok (decide (b.logLike < 10 ^ 29)) := by unfold minimumConverged; rw [hc]; rfl
        rw [e]
        constructor
        · intro h
          injection h with h
          exact .inr ⟨b, (h1 b).mp hc, not_lt.mp (of_decide_eq_false h)⟩
        · rintro (hn | ⟨b', hb, hl⟩)
          · rw [h2.mpr hn] at hc; simp at hc
          · have := (h1 b').mpr hb
            rw [hc] at this
            injection this with this
            injection this with this
            subst this
            rw [decide_eq_false (not_lt.mpr hl)]
  · unfold minimumExists NoBest
    rw [← Bool.not_eq_false, nonEmpty_false]

/-! ## Loading -/

/-- **C255**: unless the best fit cannot be read, loading depends on nothing that was loaded before -/
theorem load_fresh (fs : FS) (j : Job) (o : Opts) (it it' : Item) (h : ∀ e, chainBestfit fs j ≠ .error e) :
    loadResults fs j o it = loadResults fs j o it' := by
  unfold loadResults
  cases hc : chainBestfit fs j with
  | error e => exact absurd hc (h e)
  | ok b => rfl

/-- the other files of a run -/
def margePath (j : Job) : Str := j.distRoot ++ c!".margestats"
def likePath (j : Job) : Str := j.distRoot ++ c!".likestats"
def convPath (j : Job) : Str := j.distRoot ++ c!".converge"

/-- **C255**: loading succeeds exactly if there is no best fit or it can be read and, if there are limits and more than the best fit is wanted, they,
the likelihood statistics and, if wanted, the convergence can be read -/
theorem load_ok_iff (fs : FS) (j : Job) (o : Opts) (it : Item) : (loadResults fs j o it).2 = none ↔
    (NoBest fs j ∨ ∃ b, HasBest fs j b) ∧ (o.bestfitonly = false → fs.has (margePath j) = true →
      (∃ m, readMarge fs (margePath j) = .ok m) ∧ (∃ l, readLike fs (likePath j) = .ok l) ∧
      (o.noconverge = false → ∃ c, readConv fs (convPath j) = .ok c)) := by
  obtain ⟨h1, h2⟩ := bestfit_spec fs j
  have key : ∀ it : Item, (loadDist fs j o it).2 = none ↔
      (∃ m, readMarge fs (margePath j) = .ok m) ∧ (∃ l, readLike fs (likePath j) = .ok l) := by
    intro it
    unfold loadDist margePath likePath
    cases hm : readMarge fs (j.distRoot ++ c!".margestats") with
    | error e => simp
    | ok m =>
      cases hl : readLike fs (j.distRoot ++ c!".likestats") with
      | error e => simp
      | ok l => simp
  have hb : (NoBest fs j ∨ ∃ b, HasBest fs j b) ↔ ∃ b, chainBestfit fs j = .ok b := by
    constructor
    · rintro (h | ⟨b, h⟩)
      · exact ⟨_, h2.mpr h⟩
      · exact ⟨_, (h1 b).mpr h⟩
    · rintro ⟨b, h⟩
      cases b with
      | none => exact .inl (h2.mp h)
      | some b => exact .inr ⟨b, (h1 b).mp h⟩
  rw [hb]
  unfold loadResults getDistExists
  cases hc : chainBestfit fs j with
  | error e => simp
  | ok b =>
    dsimp only
    have ht : ∃ b', (Except.ok b : Except Err (Option (BestFit.Best ℚ))) = .ok b' := ⟨b, rfl⟩
    cases h3 : o.bestfitonly with
    | true => simp
    | false =>
      cases h4 : fs.has (j.distRoot ++ c!".margestats") with
      | false =>
        have : fs.has (margePath j) = false := h4
        simp [this]
      | true =>
        have h4' : fs.has (margePath j) = true := h4
        cases h5 : o.noconverge with
        | true => simp [h4', key]
        | false =>
          cases h6 : readConv fs (j.distRoot ++ c!".converge") with
          | error e =>
            have h6' : readConv fs (convPath j) = .error e := h6
            simp [h4', h6']
          | ok c =>
            have h6' : readConv fs (convPath j) = .ok c := h6
            simp [h4', h6', key]

/-- **C255**: what is held after loading is what is in the files; without limits, or if only the best fit is wanted, there is nothing but the best fit -/
theorem load_spec (fs : FS) (j : Job) (o : Opts) (it : Item) (h : (loadResults fs j o it).2 = none) :
    chainBestfit fs j = .ok (loadResults fs j o it).1.best ∧
    (o.bestfitonly = true ∨ fs.has (margePath j) = false →
      (loadResults fs j o it).1.conv = none ∧ (loadResults fs j o it).1.marge = none ∧ (loadResults fs j o it).1.like = none) ∧
    (o.bestfitonly = false → fs.has (margePath j) = true → ∃ m l,
      readMarge fs (margePath j) = .ok m ∧ readLike fs (likePath j) = .ok l ∧
      (loadResults fs j o it).1.like = some l ∧
      (∀ b, (loadResults fs j o it).1.best = some b → o.bestfit = true → (loadResults fs j o it).1.marge = some (withBest m b)) ∧
      ((loadResults fs j o it).1.best = none ∨ o.bestfit = false → (loadResults fs j o it).1.marge = some m) ∧
      (o.noconverge = true → (loadResults fs j o it).1.conv = none) ∧
      (o.noconverge = false → ∃ c, readConv fs (convPath j) = .ok c ∧ (loadResults fs j o it).1.conv = some c)) := by
  have key : ∀ it : Item, (loadDist fs j o it).2 = none → ∃ m l, readMarge fs (margePath j) = .ok m ∧
      readLike fs (likePath j) = .ok l ∧
      loadDist fs j o it = ({ it with marge := some (match it.best with | some b => if o.bestfit then withBest m b else m | none => m), like := some l }, none) := by
    intro it
    unfold loadDist margePath likePath
    cases hm : readMarge fs (j.distRoot ++ c!".margestats") with
    | error e => simp
    | ok m =>
      cases hl : readLike fs (j.distRoot ++ c!".likestats") with
      | error e => simp
      | ok l => intro _; exact ⟨m, l, rfl, rfl, rfl⟩
  revert h
  unfold loadResults getDistExists
  cases hc : chainBestfit fs j with
  | error e => intro h; simp at h
  | ok b =>
    dsimp only
    cases h3 : o.bestfitonly with
    | true => intro _; simp
    | false =>
      cases h4 : fs.has (j.distRoot ++ c!".margestats") with
      | false =>
        have : fs.has (margePath j) = false := h4
        intro _; simp [this]
      | true =>
        have h4' : fs.has (margePath j) = true := h4
        cases h5 : o.noconverge with
        | true =>
          simp only [if_true, if_false, Bool.false_eq_true]
          intro h
          obtain ⟨m, l, hm, hl, e⟩ := key _ h
          rw [e]
          refine ⟨rfl, by simp [h4'], fun _ _ => ⟨m, l, hm, hl, rfl, ?_, ?_, fun _ => rfl, fun h => by simp at h⟩⟩
          · rintro b' hb ho
            dsimp only at hb ⊢
            subst hb
            simp [ho]
          · rintro (hb | ho)
            · dsimp only at hb ⊢
              subst hb; rfl
            · dsimp only
              cases b <;> simp [ho]
        | false =>
          simp only [if_true, if_false, Bool.false_eq_true]
          cases h6 : readConv fs (j.distRoot ++ c!".converge") with
          | error e => intro h; simp at h
          | ok c =>
            dsimp only
            intro h
            obtain ⟨m, l, hm, hl, e⟩ := key _ h
            rw [e]
            refine ⟨rfl, by simp [h4'], fun _ _ => ⟨m, l, hm, hl, rfl, ?_, ?_, fun h => by simp at h, fun _ => ⟨c, h6, rfl⟩⟩⟩
            · rintro b' hb ho
              dsimp only at hb ⊢
              subst hb
              simp [ho]
            · rintro (hb | ho)
              · dsimp only at hb ⊢
                subst hb; rfl
              · dsimp only
                cases b <;> simp [ho]

/-- **C255**: with a best fit the table has the parameters of the limits that are in it, in their order, each with the value of the best fit -/
theorem withBest_spec (m : Marge) (b : BestFit.Best ℚ) :
    (withBest m b).limits = m.limits ∧ (withBest m b).hasBestFit = true ∧ (withBest m b).logLike = some b.logLike ∧
    (withBest m b).names.map (·.name) = (m.names.map (·.name)).filter (fun n => decide (n ∈ b.names.map (·.name))) ∧
    List.Forall₂ (fun (p : MargeStats.Par ℚ) v => ∃ q ∈ b.names, q.name = p.name ∧ v = q.bestFit ∧ p.isDerived = q.isDerived)
      (withBest m b).names (withBest m b).bestFits := by
  refine ⟨rfl, rfl, rfl, ?_, ?_⟩
  · show ((BestFit.addBestFit _ b).map (·.par)).map (·.name) = _
    unfold BestFit.addBestFit
    dsimp only
    induction m.names with
    | nil => rfl
    | cons x l ih =>
      rw [List.filterMap_cons, List.map_cons, List.filter_cons]
      cases hp : b.par x.name with
      | none =>
        have : x.name ∉ b.names.map (·.name) := by
          intro hm
          obtain ⟨q, hq, e⟩ := List.mem_map.mp hm
          unfold BestFit.Best.par at hp
          have := List.find?_eq_none.mp hp q hq
          simp [e] at this
        simp only [Option.map_none, this, decide_false, Bool.false_eq_true, if_false]
        exact ih
      | some q =>
        have : x.name ∈ b.names.map (·.name) := by
          unfold BestFit.Best.par at hp
          have h1 := List.mem_of_find?_eq_some hp
          have h2 := List.find?_some hp
          simp only [decide_eq_true_eq] at h2
          exact List.mem_map.mpr ⟨q, h1, h2⟩
        simp only [Option.map_some, this, decide_true, if_true, List.map_cons]
        rw [ih]
  · show List.Forall₂ _ ((BestFit.addBestFit _ b).map (·.par)) ((BestFit.addBestFit _ b).map (·.bestFit))
    rw [List.forall₂_map_left_iff, List.forall₂_map_right_iff, List.forall₂_same]
    intro w hw
    unfold BestFit.addBestFit at hw
    obtain ⟨x, -, hx⟩ := List.mem_filterMap.mp hw
    obtain ⟨q, hq, rfl⟩ := Option.map_eq_some_iff.mp hx
    unfold BestFit.Best.par at hq
    refine ⟨q, List.mem_of_find?_eq_some hq, ?_, rfl, rfl⟩
    have := List.find?_some hq
    simpa using this

/-! ## Convergence -/

def Op.fs : Op → FS
  | .load fs _ => fs
  | .ask fs => fs
  | .compare fs _ _ => fs

def Op.isLoad : Op → Bool
  | .load _ _ => true
  | _ => false

theorem load_conv (fs : FS) (j : Job) (o : Opts) (it : Item) (c : Conv) (h : (loadResults fs j o it).1.conv = some c) :
    readConv fs (convPath j) = .ok c := by
  have key : ∀ it : Item, (loadDist fs j o it).1.conv = it.conv := by
    intro it
    unfold loadDist
    split
    · rfl
    · split <;> rfl
  revert h
  unfold loadResults
  dsimp only
  split
  · intro h; simp at h
  · split
    · intro h; simp at h
    · split
      · split
        · rw [key]; intro h; simp at h
        · split
          · intro h; simp at h
          · next c' h6 =>
            rw [key]
            intro h
            dsimp only at h
            injection h with h
            rw [← h]; exact h6
      · intro h; simp at h

theorem ask_conv (fs : FS) (j : Job) (it : Item) (c : Conv) (h : (askR fs j it).1.conv = some c) :
    it.conv = some c ∨ (it.conv = none ∧ readConv fs (convPath j) = .ok c) := by
  revert h
  unfold askR
  split
  · next c' e => intro h; exact .inl h
  · next e =>
    split
    · split
      · intro h; rw [e] at h; cases h
      · next c' h6 =>
        intro h
        dsimp only at h
        injection h with h
        exact .inr ⟨e, by rw [← h]; exact h6⟩
    · intro h; rw [e] at h; cases h

theorem better_item (fs : FS) (j : Job) (it : Item) (r : ℚ) (n : Bool) : (better fs j it r n).1 = (askR fs j it).1 := by
  unfold better
  split
  next h => rw [h]
  next h => rw [h]

/-- **C255**: the convergence held by a job item is that of its file at some time since the results were last loaded -/
theorem conv_origin (j : Job) (ops : List Op) (c : Conv) (h : (run j ops).conv = some c) :
    ∃ pre op post, ops = pre ++ op :: post ∧ readConv op.fs (convPath j) = .ok c ∧ ∀ p ∈ post, p.isLoad = false := by
  induction ops using List.reverseRecOn generalizing c with
  | nil => simp [run] at h
  | append_singleton ops op ih =>
    have e : run j (ops ++ [op]) = step j (run j ops) op := by unfold run; rw [List.foldl_append]; rfl
    rw [e] at h
    have keep : (run j ops).conv = some c → op.isLoad = false →
        ∃ pre op' post, ops ++ [op] = pre ++ op' :: post ∧ readConv op'.fs (convPath j) = .ok c ∧ ∀ p ∈ post, p.isLoad = false := by
      intro hc hl
      obtain ⟨pre, op', post, e1, e2, e3⟩ := ih c hc
      refine ⟨pre, op', post ++ [op], by rw [e1]; simp, e2, ?_⟩
      intro p hp
      rcases List.mem_append.mp hp with hp | hp
      · exact e3 p hp
      · rw [List.mem_singleton.mp hp]; exact hl
    cases op with
    | load fs o => exact ⟨ops, .load fs o, [], rfl, load_conv fs j o _ c h, by simp⟩
    | ask fs =>
      rcases ask_conv fs j _ c h with h | ⟨-, h⟩
      · exact keep h rfl
      · exact ⟨ops, .ask fs, [], rfl, h, by simp⟩
    | compare fs r n =>
      have h' : (askR fs j (run j ops)).1.conv = some c := by rw [← better_item fs j _ r n]; exact h
      rcases ask_conv fs j _ c h' with h | ⟨-, h⟩
      · exact keep h rfl
      · exact ⟨ops, .compare fs r n, [], rfl, h, by simp⟩

/-- **C255**: a job item that holds no convergence answers from the file as it is now -/
theorem ask_now (fs : FS) (j : Job) (it : Item) (h : it.conv = none) (r : ℚ) (n : Bool)
    (hb : ∀ f, fs.get? (j.distRoot ++ c!".converge") = some f → ParamNames.dropBOM f.text = f.text) :
    (better fs j it r n).2 = JobStatus.betterThan fs j r n := by
  unfold better askR JobStatus.betterThan JobStatus.rValue nonEmpty readConv linesOf
  rw [h]
  dsimp only
  cases hf : fs.get? (j.distRoot ++ c!".converge") with
  | none => rfl
  | some f =>
    dsimp only
    rw [hb f hf]
    by_cases he : f.text.isEmpty = true
    · simp only [he, if_true, Bool.not_true, Bool.false_eq_true, if_false]
    · rw [if_neg he, if_pos (by simpa using he)]
      cases hl : loadLines (fileIter f.text) {} with
      | error e => simp only [bind, Except.bind, hl]
      | ok c =>
        simp only [bind, Except.bind, hl, pure, Except.pure, worstR]
        cases hg : c.eigs.getLast? with
        | none => rfl
        | some s =>
          dsimp only
          cases hv : (floatStr s : Option ℚ) <;> rfl

/-! ## Examples -/

def exJob : Job := .mk c!"base_plik" c!"g/base_plik" c!"g/dist/base_plik" none
def exMin : Str := c!"-log(Like) = 5\n chi-sq = 10\n\n 1 67.5 H0 H_0\n\n"
def exMarge : Str := c!"Marginalized limits: 0.68\n\nparameter mean\nH0 67 1 66 68 two H_0\nyhe 1 1 0 2 two Y\n"
def exConv (r : Str) : Str := c!"var(mean)/mean(var)\n 1 " ++ r ++ c!"\n"
def exLike : Str := c!"Best fit sample -log(Like) = 6\n"
def exFS (r : Str) : FS := [(c!"g/base_plik.minimum", ⟨exMin, 1⟩), (c!"g/dist/base_plik.margestats", ⟨exMarge, 2⟩),
  (c!"g/dist/base_plik.converge", ⟨exConv r, 2⟩), (c!"g/dist/base_plik.likestats", ⟨exLike, 2⟩)]

example : (loadResults (exFS c!"0.01") exJob {} {}).2 = none ∧ minimumConverged (exFS c!"0.01") exJob = .ok true ∧
    ((loadResults (exFS c!"0.01") exJob {} {}).1.marge.map (fun m => (m.names.map (·.name), m.bestFits))) = some ([c!"H0"], [135 / 2]) ∧
    ((loadResults (exFS c!"0.01") exJob { bestfit := false } {}).1.marge.map (fun m => (m.names.map (·.name), m.bestFits))) = some ([c!"H0", c!"yhe"], []) := by
  decide +kernel

example : (askR (exFS c!"0.01") exJob {}).2 = .ok (some (1 / 100)) := by decide +kernel

/-! ## What is not so -/

/-- **C256 fails**: a best fit that cannot be read leaves the one loaded before, while all other results are dropped (batchjob.py:431-435) -/
theorem stale_best_fails (fs : FS) (j : Job) (o : Opts) (it : Item) (e : Err) (h : chainBestfit fs j = .error e) :
    loadResults fs j o it = ({ best := it.best }, some e) := by
  unfold loadResults
  rw [h]

example : (loadResults [(c!"g/base_plik.minimum", ⟨c!"x\n", 3⟩)] exJob {} (loadResults (exFS c!"0.01") exJob {} {}).1).1.best.map (·.logLike) = some 5 := by
  decide +kernel

/-- **C256 fails**: once the convergence is known it is not read again, so a run that has converged since is still reported with the old value
(batchjob.py:415-420) -/
theorem stale_R_fails (fs : FS) (j : Job) (it : Item) (c : Conv) (h : it.conv = some c) : askR fs j it = (it, (worstR c).map some) := by
  unfold askR
  rw [h]

example : (askR (exFS c!"0.01") exJob (run exJob [.ask (exFS c!"0.5")])).2 = .ok (some (1 / 2)) ∧
    (better (exFS c!"0.01") exJob (run exJob [.ask (exFS c!"0.5")]) (1 / 10) false).2 = false ∧
    (better (exFS c!"0.01") exJob {} (1 / 10) false).2 = true := by decide +kernel

/-- **C256 fails**: if the convergence was not written the limits are not loaded although they are there; it is not checked for, as it is in `R`
(batchjob.py:438-439) -/
theorem no_converge_fails (fs : FS) (j : Job) (o : Opts) (it : Item) (b : Option (BestFit.Best ℚ)) (hb : chainBestfit fs j = .ok b)
    (ho : o.bestfitonly = false) (hn : o.noconverge = false) (hm : fs.has (margePath j) = true) (hc : fs.get? (convPath j) = none) :
    loadResults fs j o it = ({ best := b }, some .os) := by
  have hm' : getDistExists fs j = true := hm
  have e : readConv fs (j.distRoot ++ c!".converge") = .error .os := by
    unfold readConv linesOf
    rw [show fs.get? (j.distRoot ++ c!".converge") = none from hc]
    rfl
  unfold loadResults
  rw [hb]
  dsimp only
  rw [if_neg (by rw [ho]; decide), if_pos hm', if_neg (by rw [hn]; decide), e]

example : loadResults ((exFS c!"0.01").erase c!"g/dist/base_plik.converge") exJob { bestfit := false } {} =
    ({ best := (loadResults (exFS c!"0.01") exJob {} {}).1.best }, some .os) := by decide +kernel

/-- **C256 fails**: without the likelihood statistics there is an error that leaves the limits without their best fit (batchjob.py:440-442) -/
theorem no_like_fails (fs : FS) (j : Job) (o : Opts) (it : Item) (m : Marge) (hm : readMarge fs (margePath j) = .ok m) (hl : fs.get? (likePath j) = none) :
    loadDist fs j o it = ({ it with marge := some m }, some .os) ∧ m.hasBestFit = false := by
  have e : readLike fs (j.distRoot ++ c!".likestats") = .error .os := by
    unfold readLike linesOf
    rw [show fs.get? (j.distRoot ++ c!".likestats") = none from hl]
    rfl
  constructor
  · unfold loadDist
    rw [show readMarge fs (j.distRoot ++ c!".margestats") = .ok m from hm]
    dsimp only
    rw [e]
  · unfold readMarge at hm
    split at hm
    · cases hm
    · split at hm
      · injection hm with hm
        rw [← hm]
      · cases hm

/-- **C256 fails**: a best fit that cannot be read is not a failed minimization but stops the script that would repeat it (batchjob.py:377-380,
runbatch.py:98) -/
theorem unreadable_minimum_fails (fs : FS) (j : Job) (e : Err) (h : chainBestfit fs j = .error e) : minimumConverged fs j = .error e := by
  unfold minimumConverged
  rw [h]
  rfl

example : minimumConverged [(c!"g/base_plik.minimum", ⟨c!"\n", 3⟩)] exJob = .error (.best .format) := by decide +kernel

/-- **C256**: right after loading with the convergence, the answer is that of the file (missing: later changes of it) -/
theorem ask_after_load_partial (fs fs' : FS) (j : Job) (o : Opts) (it : Item) (h : (loadResults fs j o it).2 = none) (ho : o.bestfitonly = false)
    (hn : o.noconverge = false) (hm : fs.has (margePath j) = true) :
    ∃ c, readConv fs (convPath j) = .ok c ∧ (askR fs' j (loadResults fs j o it).1).2 = (worstR c).map some := by
  obtain ⟨m, l, -, -, -, -, -, -, h6⟩ := (load_spec fs j o it h).2.2 ho hm
  obtain ⟨c, h1, h2⟩ := h6 hn
  exact ⟨c, h1, by rw [stale_R_fails fs' j _ c h2]⟩

end Verif.JobResults
