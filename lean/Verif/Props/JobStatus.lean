import Verif.Model.JobStatus
import Verif.Props.GridFiles
import Verif.Props.NumFmt
import Verif.Props.MargeStats
import Verif.Lemmas.Split

/-!
# C79 - C82: state of runs, convergence files, choice of runs
-/

namespace Verif.JobStatus
open Verif.Py
open Verif.GridFiles (FS FileD There has_there there_iff mem_chainLoop)
open Verif.NumFmt (fmtF fmtF_spec)

/-! ## chain files -/

theorem chainName_inj {root : Str} {i k : Nat} (h : chainName root i = chainName root k) : i = k := by
  simp only [chainName, List.append_assoc, List.append_cancel_left_eq, List.append_cancel_right_eq] at h
  exact strNat_injective h

theorem nonEmpty_iff (fs : FS) (p : Str) : nonEmpty fs p = true ↔ ∃ d, fs.get? p = some d ∧ d.text ≠ [] := by
  unfold nonEmpty
  cases h : fs.get? p with
  | none => simp
  | some d => simp

/-- no more chains than files -/
theorem chain_bound (fs : FS) (root : Str) (i : Nat) (h : ∀ m, 1 ≤ m → m ≤ i → There fs (chainName root m)) : i ≤ fs.length := by
  have hsub : ((List.range i).map (fun m => chainName root (m + 1))) ⊆ fs.keys := by
    intro p hp
    obtain ⟨m, hm, rfl⟩ := List.mem_map.mp hp
    exact (there_iff _ _).mp (h (m + 1) (by omega) (by have := List.mem_range.mp hm; omega))
  have hnd : ((List.range i).map (fun m => chainName root (m + 1))).Nodup := by
    apply List.Nodup.map _ List.nodup_range
    intro a b e
    have := chainName_inj e
    omega
  have := (hnd.subperm hsub).length_le
  simp [Dict.keys] at this
  omega

theorem chain_loop_iff (fs : FS) (root : Str) (ex : Nat → Bool) (hex : ∀ i, ex i = true → There fs (chainName root i)) (i : Nat) :
    i ∈ GridFiles.chainLoop ex (fs.length + 1) 1 ↔ 1 ≤ i ∧ ∀ m, 1 ≤ m → m ≤ i → ex m = true := by
  rw [mem_chainLoop]
  constructor
  · rintro ⟨h1, _, h3⟩; exact ⟨h1, h3⟩
  · rintro ⟨h1, h3⟩
    have := chain_bound fs root i (fun m a b => hex m (h3 m a b))
    exact ⟨h1, by omega, h3⟩

theorem there_of_exists {fs : FS} {root : Str} {i : Nat} (h : chainExists fs root i = true) : There fs (chainName root i) := by
  obtain ⟨d, h, _⟩ := (nonEmpty_iff _ _).mp h
  exact ⟨d, Dict.mem_of_get? h⟩

/-- **C79** Without a number, `chainNames` lists the chain files from one up to the first that is missing or empty. -/
theorem chainNames_spec (fs : FS) (root p : Str) :
    p ∈ chainNames fs root none ↔ ∃ i, p = chainName root i ∧ 1 ≤ i ∧ ∀ m, 1 ≤ m → m ≤ i → chainExists fs root m = true := by
  unfold chainNames
  simp only [List.mem_map]
  constructor
  · rintro ⟨i, hi, rfl⟩
    obtain ⟨h1, h2⟩ := (chain_loop_iff fs root (fun i => chainExists fs root i) (fun i => there_of_exists) i).mp hi
    exact ⟨i, rfl, h1, h2⟩
  · rintro ⟨i, rfl, h1, h2⟩
    exact ⟨i, (chain_loop_iff fs root (fun i => chainExists fs root i) (fun i => there_of_exists) i).mpr ⟨h1, h2⟩, rfl⟩

/-- **C79** Fails with a number: the list starts with the chain number zero, which never exists, and lacks the last chain. -/
theorem chainNames_number_fails (fs : FS) (root : Str) (n : Nat) (h : 0 < n) :
    chainName root 0 ∈ chainNames fs root (some n) ∧ chainName root n ∉ chainNames fs root (some n) := by
  obtain ⟨m, rfl⟩ : ∃ m, n = m + 1 := ⟨n - 1, by omega⟩
  simp only [chainNames]
  constructor
  · exact List.mem_map.mpr ⟨0, by simp, rfl⟩
  · intro hm
    obtain ⟨i, hi, he⟩ := List.mem_map.mp hm
    have := chainName_inj he
    have := List.mem_range.mp hi
    omega

theorem allChainExists_iff (fs : FS) (root : Str) (n : Nat) :
    allChainExists fs root n = true ↔ ∀ i, 1 ≤ i → i ≤ n → chainExists fs root i = true := by
  rw [allChainExists, List.all_eq_true]
  constructor
  · intro h i h1 h2
    have := h (i - 1) (List.mem_range.mpr (by omega))
    rwa [show i - 1 + 1 = i by omega] at this
  · intro h i hi
    exact h (i + 1) (by omega) (by have := List.mem_range.mp hi; omega)

/-! ## stuck chains -/

/-- the chains 1 .. n are there and the next is not -/
def Consecutive (fs : FS) (root : Str) (n : Nat) : Prop :=
  (∀ m, 1 ≤ m → m ≤ n → There fs (chainName root m)) ∧ ¬ There fs (chainName root (n + 1))

theorem chainLoop_range (ex : Nat → Bool) (fuel i n : Nat) (h1 : ∀ m, i ≤ m → m < i + n → ex m = true) (h2 : ex (i + n) = false) (hf : n < fuel) :
    GridFiles.chainLoop ex fuel i = List.range' i n := by
  induction n generalizing i fuel with
  | zero =>
    obtain ⟨f, rfl⟩ : ∃ f, fuel = f + 1 := ⟨fuel - 1, by omega⟩
    rw [GridFiles.chainLoop]
    simp at h2
    simp [h2]
  | succ n ih =>
    obtain ⟨f, rfl⟩ : ∃ f, fuel = f + 1 := ⟨fuel - 1, by omega⟩
    rw [GridFiles.chainLoop, if_pos (h1 i (le_refl _) (by omega)), List.range'_succ]
    congr 1
    apply ih
    · intro m hm1 hm2; exact h1 m (by omega) (by omega)
    · rw [show i + 1 + n = i + (n + 1) by omega]; exact h2
    · omega

theorem nums_eq (fs : FS) (root : Str) (n : Nat) (h : Consecutive fs root n) :
    GridFiles.chainLoop (fun i => fs.has (chainName root i)) (fs.length + 1) 1 = List.range' 1 n := by
  apply chainLoop_range
  · intro m h1 h2; exact (has_there _ _).mpr (h.1 m h1 (by omega))
  · rw [show 1 + n = n + 1 by omega, ← Bool.not_eq_true, has_there]; exact h.2
  · by_cases hn : n = 0
    · omega
    have := chain_bound fs root n h.1
    omega

/-- the date of a file -/
def Date (fs : FS) (p : Str) (t : Int) : Prop := ∃ d, fs.get? p = some d ∧ d.mtime = t

theorem date_of_there {fs : FS} {p : Str} (h : There fs p) : ∃ t, Date fs p t := by
  rw [← has_there, Dict.has, Option.isSome_iff_exists] at h
  obtain ⟨d, h⟩ := h
  exact ⟨d.mtime, d, h, rfl⟩

theorem spread_iff (l : List Int) (k : Int) (hi lo : Int) (h1 : l.max? = some hi) (h2 : l.min? = some lo) :
    hi - lo > k ↔ ∃ a ∈ l, ∃ b ∈ l, a - b > k := by
  rw [List.max?_eq_some_iff] at h1
  rw [List.min?_eq_some_iff] at h2
  constructor
  · intro h; exact ⟨hi, h1.1, lo, h2.1, h⟩
  · rintro ⟨a, ha, b, hb, h⟩
    have := h1.2 a ha
    have := h2.2 b hb
    omega

/-- **C79** With chains 1 to n, n positive, and the next missing, the chains count as stuck exactly if chain n+2 is there, or two of the
chains were last written more than the interval apart. -/
theorem dodgy_spec (fs : FS) (root : Str) (interval : Int) (n : Nat) (hn : 0 < n) (h : Consecutive fs root n) :
    ∃ b, chainsDodgy fs root interval = .ok b ∧
      (b = true ↔ There fs (chainName root (n + 2)) ∨
        ∃ i k s t, 1 ≤ i ∧ i ≤ n ∧ 1 ≤ k ∧ k ≤ n ∧ Date fs (chainName root i) s ∧ Date fs (chainName root k) t ∧ s - t > interval) := by
  unfold chainsDodgy
  simp only [nums_eq fs root n h, List.length_range']
  by_cases hgap : There fs (chainName root (n + 2))
  · rw [if_pos ((has_there _ _).mpr hgap)]
    exact ⟨true, rfl, by simp [hgap]⟩
  rw [if_neg (by rw [has_there]; exact hgap)]
  set dates := (List.range' 1 n).filterMap (fun i => (fs.get? (chainName root i)).map (·.mtime)) with hd
  have hmem : ∀ t, t ∈ dates ↔ ∃ i, 1 ≤ i ∧ i ≤ n ∧ Date fs (chainName root i) t := by
    intro t
    rw [hd, List.mem_filterMap]
    constructor
    · rintro ⟨i, hi, ht⟩
      rw [List.mem_range'_1] at hi
      rw [Option.map_eq_some_iff] at ht
      obtain ⟨d, hd1, hd2⟩ := ht
      exact ⟨i, hi.1, by omega, d, hd1, hd2⟩
    · rintro ⟨i, h1, h2, d, hd1, hd2⟩
      exact ⟨i, List.mem_range'_1.mpr ⟨h1, by omega⟩, by rw [hd1]; simp [hd2]⟩
  have hne : dates ≠ [] := by
    obtain ⟨t, ht⟩ := date_of_there (h.1 1 (le_refl _) hn)
    intro e
    have := (hmem t).mpr ⟨1, le_refl _, hn, ht⟩
    rw [e] at this; cases this
  obtain ⟨hi, hhi⟩ : ∃ x, dates.max? = some x := by
    cases hx : dates.max? with
    | none => exact absurd (List.max?_eq_none_iff.mp hx) hne
    | some x => exact ⟨x, rfl⟩
  obtain ⟨lo, hlo⟩ : ∃ x, dates.min? = some x := by
    cases hx : dates.min? with
    | none => exact absurd (List.min?_eq_none_iff.mp hx) hne
    | some x => exact ⟨x, rfl⟩
  rw [hhi, hlo]
  refine ⟨decide (hi - lo > interval), rfl, ?_⟩
  rw [decide_eq_true_iff, spread_iff dates interval hi lo hhi hlo]
  constructor
  · rintro ⟨a, ha, b, hb, hab⟩
    obtain ⟨i, h1, h2, h3⟩ := (hmem a).mp ha
    obtain ⟨k, h4, h5, h6⟩ := (hmem b).mp hb
    exact .inr ⟨i, k, a, b, h1, h2, h4, h5, h3, h6, hab⟩
  · rintro (hg | ⟨i, k, a, b, h1, h2, h4, h5, h3, h6, hab⟩)
    · exact absurd hg hgap
    · exact ⟨a, (hmem a).mpr ⟨i, h1, h2, h3⟩, b, (hmem b).mpr ⟨k, h4, h5, h6⟩, hab⟩

/-- **C79** Fails without chains: asking raises an error, unless there is a second chain. -/
theorem dodgy_none_fails (fs : FS) (root : Str) (interval : Int) (h1 : ¬ There fs (chainName root 1)) (h2 : ¬ There fs (chainName root 2)) :
    chainsDodgy fs root interval = .error .value := by
  unfold chainsDodgy
  simp only [nums_eq fs root 0 ⟨fun m a b => by omega, h1⟩, List.length_range']
  rw [if_neg (by rw [has_there]; exact h2)]
  rfl

def exRoot : Str := c!"/g/base/plik/base"
/-- **C79** Fails for larger gaps: chains 1 and 4 without 2 and 3 do not count as stuck. -/
theorem dodgy_gap_fails : chainsDodgy [(c!"/g/base/plik/base_1.txt", ⟨c!"x\n", 5⟩), (c!"/g/base/plik/base_4.txt", ⟨c!"x\n", 5⟩)] exRoot = .ok false := by
  decide

example : chainsDodgy [(c!"/g/base/plik/base_1.txt", ⟨c!"x\n", 5⟩), (c!"/g/base/plik/base_3.txt", ⟨c!"x\n", 5⟩)] exRoot = .ok true ∧
    chainsDodgy [(c!"/g/base/plik/base_1.txt", ⟨c!"x\n", 5⟩), (c!"/g/base/plik/base_2.txt", ⟨c!"x\n", 1000⟩)] exRoot = .ok true ∧
    chainsDodgy [(c!"/g/base/plik/base_1.txt", ⟨c!"x\n", 5⟩), (c!"/g/base/plik/base_2.txt", ⟨c!"x\n", 600⟩)] exRoot = .ok false := by decide

/-! ## dates -/

/-- **C80** The analysis of a run counts as out of date exactly if there are samples and either no results, or results older than the
first chain. -/
theorem needsUpdate_iff (fs : FS) (j : Job) :
    getDistNeedsUpdate fs j = true ↔ chainExists fs j.chainRoot = true ∧
      (¬ There fs (j.distRoot ++ c!".margestats") ∨
       ∃ s t, Date fs (chainName j.chainRoot 1) s ∧ Date fs (j.distRoot ++ c!".margestats") t ∧ t < s) := by
  unfold getDistNeedsUpdate getDistExists
  rw [Bool.and_eq_true]
  refine and_congr_right (fun hc => ?_)
  rw [Bool.or_eq_true, Bool.not_eq_true', ← Bool.not_eq_true, has_there]
  refine or_congr_right ?_
  generalize j.distRoot ++ c!".margestats" = q
  cases h1 : fs.get? (chainName j.chainRoot 1) with
  | none => simp [Date, h1]
  | some c => cases h2 : fs.get? q with
    | none => simp [Date, h2]
    | some m => simp [Date, h1, h2]

/-- **C80** Fails for the other chains: a later change of any chain but the first is not noticed. -/
theorem needsUpdate_other_fails (fs : FS) (j : Job) (i : Nat) (hi : i ≠ 1) (f : FileD) (hd : j.distRoot ++ c!".margestats" ≠ chainName j.chainRoot i) :
    getDistNeedsUpdate (fs.set (chainName j.chainRoot i) f) j = getDistNeedsUpdate fs j := by
  have h1 : (fs.set (chainName j.chainRoot i) f).get? (chainName j.chainRoot 1) = fs.get? (chainName j.chainRoot 1) :=
    Dict.get?_set_of_ne _ _ (fun e => hi (chainName_inj e).symm)
  have h2 : (fs.set (chainName j.chainRoot i) f).get? (j.distRoot ++ c!".margestats") = fs.get? (j.distRoot ++ c!".margestats") :=
    Dict.get?_set_of_ne _ _ hd
  unfold getDistNeedsUpdate getDistExists chainExists nonEmpty Dict.has
  rw [h1, h2]

/-- **C80** An importance run counts as changed exactly if it has no samples or its first chain is older than the parent's. -/
theorem parentChanged_iff (fs : FS) (root parent : Str) (t : Int) (ht : Date fs (chainName parent 1) t) :
    ∃ b, parentChanged fs root parent = .ok b ∧
      (b = true ↔ chainExists fs root = false ∨ ∃ s, Date fs (chainName root 1) s ∧ s < t) := by
  unfold parentChanged
  by_cases h : chainExists fs root = true
  · obtain ⟨d, hd, _⟩ := (nonEmpty_iff _ _).mp h
    obtain ⟨e, he, rfl⟩ := ht
    rw [h]
    simp only [Bool.not_true, Bool.false_eq_true, if_false, getmtime, hd, he]
    refine ⟨decide (d.mtime < e.mtime), rfl, ?_⟩
    simp [Date, hd]
  · rw [Bool.not_eq_true] at h
    rw [h]
    exact ⟨true, rfl, by simp⟩

/-- **C80** Fails without the parent's chain: an error instead of an answer. -/
theorem parentChanged_missing_fails (fs : FS) (root parent : Str) (h : chainExists fs root = true) (hp : ¬ There fs (chainName parent 1)) :
    parentChanged fs root parent = .error .os := by
  obtain ⟨d, hd, _⟩ := (nonEmpty_iff _ _).mp h
  have : fs.get? (chainName parent 1) = none := Dict.get?_eq_none.mpr (by rw [← there_iff]; exact hp)
  unfold parentChanged
  rw [h]
  simp only [Bool.not_true, Bool.false_eq_true, if_false, getmtime, hd, this]
  rfl

theorem notRunning_iff (fs : FS) (root : Str) (now : Int) :
    notRunning fs root now = true ↔ chainExists fs root = true ∧ ∃ t, Date fs (chainName root 1) t ∧ t < now - 300 := by
  unfold notRunning
  rw [Bool.and_eq_true]
  refine and_congr_right (fun _ => ?_)
  cases h : fs.get? (chainName root 1) with
  | none => simp [Date, h]
  | some d => simp [Date, h]

def exJob : Job := .mk c!"base" exRoot c!"/g/base/plik/dist/base" none
example : getDistNeedsUpdate [(c!"/g/base/plik/base_1.txt", ⟨c!"x\n", 5⟩), (c!"/g/base/plik/base_2.txt", ⟨c!"x\n", 99⟩),
    (c!"/g/base/plik/dist/base.margestats", ⟨c!"m", 50⟩)] exJob = false ∧
    getDistNeedsUpdate [(c!"/g/base/plik/base_1.txt", ⟨c!"x\n", 55⟩), (c!"/g/base/plik/dist/base.margestats", ⟨c!"m", 50⟩)] exJob = true := by decide
example : parentChanged [(c!"a_1.txt", ⟨c!"x", 3⟩), (c!"b_1.txt", ⟨c!"x", 4⟩)] c!"a" c!"b" = .ok true := by decide

/-! ## the status file -/

/-- **C79** A status file with a number on its first line is read as that number, done exactly if the second line is the word Done. -/
theorem convergeStat_spec (fs : FS) (root : Str) (f : FileD) (hf : fs.get? (root ++ c!".converge_stat") = some f) (num : Str) (rest : List Str)
    (r : ℚ) (hr : floatStr num = some r) (hn : OneLine num) (ho : ∀ l ∈ rest, OneLine l)
    (ht : f.text = (num :: rest).flatMap (fun l => l ++ ['\n'])) :
    convergeStat fs root = .ok (some (r, decide (∃ d, rest.head? = some d ∧ strip d = c!"Done"))) := by
  have hfi : fileIter f.text = (num :: rest).map (· ++ ['\n']) := by
    rw [ht]; exact fileIter_terminated (by intro l hl; rcases List.mem_cons.mp hl with rfl | h; exacts [hn, ho l h])
  have hstrip : ∀ s : Str, strip (s ++ ['\n']) = strip s := by
    intro s; exact strip_append_ws s _ (by decide)
  have hfl : (floatStr (strip num) : Option ℚ) = some r := by
    rw [← hr]; unfold floatStr; rw [strip_strip]
  unfold convergeStat
  rw [hf]
  have hne : f.text.isEmpty = false := by rw [ht]; simp
  simp only [hne, Bool.false_eq_true, if_false, hfi, List.map_cons, hstrip, hfl]
  cases rest with
  | nil => simp
  | cons d ds => simp [hstrip]

/-- **C79** An original run has finished exactly if its status file says so. -/
theorem finished_original (fs : FS) (now : Int) (n c d : Str) (b : Bool) (r : ℚ) (h : convergeStat fs c = .ok (some (r, b))) :
    chainFinished fs now (.mk n c d none) = .ok b := by
  simp [chainFinished, Job.parent, Job.chainRoot, h, bind, Except.bind, pure, Except.pure]

/-- **C79** An importance run has finished exactly if the parent has finished, its own samples are not older than the parent's, and it has
not been written for five minutes. -/
theorem finished_importance (fs : FS) (now : Int) (n c d : Str) (p : Job) (b : Bool) (r : ℚ) (h : convergeStat fs p.chainRoot = .ok (some (r, b)))
    (t : Int) (ht : Date fs (chainName p.chainRoot 1) t) :
    ∃ x, chainFinished fs now (.mk n c d (some p)) = .ok x ∧
      (x = true ↔ b = true ∧ ∃ s, chainExists fs c = true ∧ Date fs (chainName c 1) s ∧ t ≤ s ∧ s < now - 300) := by
  obtain ⟨ch, hch, hiff⟩ := parentChanged_iff fs c p.chainRoot t ht
  have hnr := notRunning_iff fs c now
  have e : chainFinished fs now (.mk n c d (some p)) = .ok (!ch && notRunning fs c now && b) := by
    have e1 : (Job.mk n c d (some p)).parent = some p := rfl
    have e2 : (Job.mk n c d (some p)).chainRoot = c := rfl
    unfold chainFinished
    rw [e1, e2]
    dsimp only
    rw [h, hch]
    generalize notRunning fs c now = nr
    cases ch <;> cases nr <;> rfl
  refine ⟨_, e, ?_⟩
  rw [Bool.and_eq_true, Bool.and_eq_true, Bool.not_eq_true', hnr]
  have hd : ∀ s s', Date fs (chainName c 1) s → Date fs (chainName c 1) s' → s = s' := by
    rintro s s' ⟨x, hx, rfl⟩ ⟨y, hy, rfl⟩; rw [hx] at hy; cases hy; rfl
  constructor
  · rintro ⟨⟨h1, h2, s, h3, h4⟩, h5⟩
    refine ⟨h5, s, h2, h3, ?_, h4⟩
    by_contra hlt
    rw [not_le] at hlt
    have := hiff.mpr (.inr ⟨s, h3, hlt⟩)
    rw [this] at h1; cases h1
  · rintro ⟨h5, s, h2, h3, h6, h4⟩
    refine ⟨⟨?_, h2, s, h3, h4⟩, h5⟩
    rw [← Bool.not_eq_true]
    intro hc
    rcases hiff.mp hc with h7 | ⟨s', h7, h8⟩
    · rw [h2] at h7; cases h7
    · have := hd _ _ h3 h7; omega

/-- **C79** A run is continued from its checkpoint exactly if it has one, is not done, and its value is above the one given. -/
theorem checkpoint_iff (fs : FS) (root : Str) (minR : ℚ) (s : Option (ℚ × Bool)) (h : convergeStat fs root = .ok s) :
    wantCheckpointContinue fs root minR = .ok true ↔ ∃ r, s = some (r, false) ∧ minR < r ∧ There fs (root ++ c!"_1.chk") := by
  unfold wantCheckpointContinue
  rw [h]
  cases s with
  | none => simp [bind, Except.bind, pure, Except.pure]
  | some x =>
    obtain ⟨r, b⟩ := x
    simp [bind, Except.bind, pure, Except.pure, has_there]
    constructor
    · rintro ⟨⟨h1, h2⟩, h3⟩; exact ⟨h2, h3, h1⟩
    · rintro ⟨h2, h3, h1⟩; exact ⟨⟨h1, h2⟩, h3⟩

example : convergeStat [(c!"/g/base/plik/base.converge_stat", ⟨c!"0.013\nDone\n", 1⟩)] exRoot = .ok (some (13/1000, true)) ∧
    convergeStat [(c!"/g/base/plik/base.converge_stat", ⟨c!" 0.5\n", 1⟩)] exRoot = .ok (some (1/2, false)) := by decide +kernel

/-! ## the convergence file -/

/-- a line that is not the start of a table -/
def NoMark (l : Str) : Prop := contains c!"var(mean)" l = false ∧ contains c!"Parameter auto-correlations" l = false

instance (l : Str) : Decidable (NoMark l) := inferInstanceAs (Decidable (_ ∧ _))

theorem contains_nl {sub l : Str} (hs : '\n' ∉ sub) (h : contains sub l = false) : contains sub (l ++ ['\n']) = false := by
  rw [← Bool.not_eq_true] at h ⊢
  intro hc
  apply h
  obtain ⟨a, b, hab⟩ := contains_iff.mp hc
  rcases List.eq_nil_or_concat b with rfl | ⟨b', c, rfl⟩
  · rw [List.append_nil] at hab
    rcases List.eq_nil_or_concat sub with rfl | ⟨s', c, rfl⟩
    · exact contains_iff.mpr ⟨[], l, rfl⟩
    · exfalso
      rw [List.concat_eq_append, ← List.append_assoc] at hab
      have := (List.append_inj' hab rfl).2
      simp at this
      subst this
      exact hs (by simp)
  · rw [List.concat_eq_append, ← List.append_assoc] at hab
    have := (List.append_inj' hab rfl).1
    exact contains_iff.mpr ⟨a, b', this⟩

theorem loadLines_skip (xs ys : List Str) (c : Conv) (h : ∀ l ∈ xs, NoMark l) : loadLines (xs.map (· ++ ['\n']) ++ ys) c = loadLines ys c := by
  induction xs with
  | nil => rfl
  | cons l xs ih =>
    have hl := h l (by simp)
    rw [List.map_cons, List.cons_append, loadLines, if_neg (by rw [contains_nl (by decide) hl.1]; simp),
      if_neg (by rw [contains_nl (by decide) hl.2]; simp)]
    exact ih (fun l hl => h l (by simp [hl]))

theorem fmtF_chars (dp : Nat) (x : ℚ) (hdp : 0 < dp) : ∀ c ∈ fmtF dp x, c.isDigit = true ∨ c = '.' ∨ c = '-' := by
  obtain ⟨ip, fp, he, _, _, h1, h2, _⟩ := NumFmt.fixedPoint_shape (roundEven (|x| * 10 ^ dp)).toNat hdp
  intro c hc
  unfold fmtF at hc
  rw [he] at hc
  rcases List.mem_append.mp hc with h | h
  · split at h
    · simp at h; exact .inr (.inr h)
    · simp at h
  · rcases List.mem_append.mp h with h | h
    · exact .inl (h1 c h)
    · rcases List.mem_cons.mp h with h | h
      · exact .inr (.inl h)
      · exact .inl (h2 c h)

theorem ws_of_char {c : Char} (h : c.isDigit = true ∨ c = '.' ∨ c = '-') : isWs c = false := by
  apply numChar_not_ws
  unfold numChar
  rcases h with h | h | h <;> simp [h]

theorem fmtF_token (dp : Nat) (x : ℚ) (hdp : 0 < dp) : Token (fmtF dp x) := by
  refine ⟨?_, fun c hc => ws_of_char (fmtF_chars dp x hdp c hc)⟩
  obtain ⟨ip, fp, he, _⟩ := NumFmt.fixedPoint_shape (roundEven (|x| * 10 ^ dp)).toNat hdp
  unfold fmtF
  rw [he]
  simp

theorem strNat_token (n : Nat) : Token (strNat n) :=
  ⟨strNat_ne_nil n, fun _ hc => ws_of_char (.inl (strNat_isDigit hc))⟩

/-- what is read of an eigenvalue -/
def ReadAs (d v : ℚ) : Prop := if (fmtF 5 d).length < 13 then |v - d| ≤ 1 / 10 ^ 5 / 2 else v = 10 ^ 30

theorem blank_rep (n : Nat) : Blank (List.replicate n ' ') := by
  intro c hc; rw [List.eq_of_mem_replicate hc]; decide

theorem eig_read (i : Nat) (d : ℚ) : ∃ v, floatStr (eigOf (eigLine i d ++ ['\n'])) = some v ∧ ReadAs d v := by
  unfold ReadAs
  have hnl : Blank ['\n'] := by intro c hc; simp at hc; subst hc; decide
  by_cases h : (fmtF 5 d).length < 13
  · simp only [if_pos h]
    have e : eigLine i d ++ ['\n'] = List.replicate (3 - (strNat i).length) ' ' ++ strNat i ++
        fields [(List.replicate (13 - (fmtF 5 d).length) ' ', fmtF 5 d)] ++ ['\n'] := by
      simp [eigLine, rjust, fields]
    obtain ⟨_, v, hv, hb⟩ := fmtF_spec 5 d
    refine ⟨v, ?_, hb⟩
    rw [e, eigOf, splitWs_fields (blank_rep _) (strNat_token i) _ hnl]
    · exact hv
    · intro p hp
      simp at hp; subst hp
      refine ⟨?_, blank_rep _, fmtF_token 5 d (by decide)⟩
      intro hz
      have := congrArg List.length hz
      simp at this; omega
  · simp only [if_neg h]
    refine ⟨10 ^ 30, ?_, rfl⟩
    have e : eigLine i d ++ ['\n'] = List.replicate (3 - (strNat i).length) ' ' ++ (strNat i ++ fmtF 5 d) ++ fields [] ++ ['\n'] := by
      simp [eigLine, rjust, fields, show 13 - (fmtF 5 d).length = 0 by omega]
    have ht : Token (strNat i ++ fmtF 5 d) := by
      refine ⟨by simp [strNat_ne_nil], fun c hc => ?_⟩
      rcases List.mem_append.mp hc with h | h
      · exact (strNat_token i).2 c h
      · exact (fmtF_token 5 d (by decide)).2 c h
    rw [e, eigOf, splitWs_fields (blank_rep _) ht (by simp) hnl]
    change floatStr c!"1e30" = some (10 ^ 30)
    decide +kernel

theorem eigLine_chars (i : Nat) (d : ℚ) : ∀ c ∈ eigLine i d, c.isDigit = true ∨ c = '.' ∨ c = '-' ∨ c = ' ' := by
  intro c hc
  simp only [eigLine, rjust, List.mem_append] at hc
  rcases hc with (h | h) | (h | h)
  · exact .inr (.inr (.inr (List.eq_of_mem_replicate h)))
  · exact .inl (strNat_isDigit h)
  · exact .inr (.inr (.inr (List.eq_of_mem_replicate h)))
  · rcases fmtF_chars 5 d (by decide) c h with h | h | h
    · exact .inl h
    · exact .inr (.inl h)
    · exact .inr (.inr (.inl h))

theorem strip_nil {s : Str} (h : strip s = []) : ∀ c ∈ s, isWs c = true := by
  intro c hc
  by_contra hw
  have h1 : rstrip (lstrip s) = [] := h
  have hne : lstrip s ≠ [] ∧ c ∈ lstrip s := by
    have : c ∈ s.dropWhile isWs := by
      rw [← List.takeWhile_append_dropWhile (p := isWs) (l := s)] at hc
      rcases List.mem_append.mp hc with h | h
      · exact absurd (List.mem_takeWhile_imp h) hw
      · exact h
    exact ⟨List.ne_nil_of_mem this, this⟩
  have h2 : (lstrip s).reverse.dropWhile isWs = [] := by
    have := congrArg List.reverse h1
    simpa [rstrip] using this
  have := List.dropWhile_eq_nil_iff.mp h2 c (by simpa using hne.2)
  exact hw this

theorem eigLine_noMark (i : Nat) (d : ℚ) : NoMark (eigLine i d) ∧ OneLine (eigLine i d) ∧ nonBlank (eigLine i d ++ ['\n']) = true := by
  have hno : ∀ c : Char, c.isDigit = false → c ≠ '.' → c ≠ '-' → c ≠ ' ' → c ∉ eigLine i d := by
    intro c h1 h2 h3 h4 hc
    rcases eigLine_chars i d c hc with h | h | h | h
    · rw [h] at h1; cases h1
    · exact h2 h
    · exact h3 h
    · exact h4 h
  refine ⟨⟨?_, ?_⟩, ⟨?_, ?_⟩, ?_⟩
  · exact contains_eq_false_of_not_mem (c := 'v') (by decide) (hno _ (by decide) (by decide) (by decide) (by decide))
  · exact contains_eq_false_of_not_mem (c := 'P') (by decide) (hno _ (by decide) (by decide) (by decide) (by decide))
  · exact hno _ (by decide) (by decide) (by decide) (by decide)
  · exact hno _ (by decide) (by decide) (by decide) (by decide)
  · unfold nonBlank
    rw [Bool.not_eq_true', ← Bool.not_eq_true, List.isEmpty_iff]
    intro hs
    obtain ⟨c, hc⟩ := List.exists_mem_of_ne_nil _ (strNat_ne_nil i)
    have hcm : c ∈ eigLine i d ++ ['\n'] := by simp [eigLine, rjust, hc]
    have := strip_nil hs c hcm
    rw [ws_of_char (.inl (strNat_isDigit hc))] at this
    cases this

/-- the lines of the eigenvalue table -/
def eigLines (ds : List ℚ) : List Str := ds.mapIdx (fun i x => eigLine (i + 1) x)

theorem grHeader_facts : contains c!"var(mean)" (grHeader ++ ['\n']) = true ∧ OneLine grHeader := by decide

/-- lines after which the file can be read -/
def Harmless (ls : List Str) : Prop := ∀ l ∈ ls, NoMark l ∧ OneLine l

theorem eigLines_harmless (ds : List ℚ) : Harmless (eigLines ds) := by
  intro l hl
  obtain ⟨i, hi, rfl⟩ := List.mem_mapIdx.mp hl
  have := eigLine_noMark (i + 1) ds[i]
  exact ⟨this.1, this.2.1⟩

theorem takeWhile_table (ds : List ℚ) (rest : List Str) :
    ((eigLines ds).map (· ++ ['\n']) ++ ([] ++ ['\n']) :: rest).takeWhile nonBlank = (eigLines ds).map (· ++ ['\n']) := by
  rw [List.takeWhile_append_of_pos]
  · have : nonBlank ([] ++ ['\n']) = false := by decide
    rw [List.takeWhile_cons, this]; simp
  · intro l hl
    obtain ⟨m, hm, rfl⟩ := List.mem_map.mp hl
    obtain ⟨i, hi, rfl⟩ := List.mem_mapIdx.mp hm
    exact (eigLine_noMark (i + 1) ds[i]).2.2

theorem load_file (before mid : List Str) (d : Option (List ℚ)) (hb : Harmless before) (hm : Harmless mid) :
    loadLines (fileIter (fileText before d mid [])) {} =
      .ok { eigs := match d with | some ds => ((eigLines ds).map (· ++ ['\n'])).map eigOf | none => [] } := by
  have hone : ∀ l ∈ before ++ grLines d ++ mid ++ [], OneLine l := by
    intro l hl
    simp only [List.append_nil, List.mem_append] at hl
    rcases hl with (hl | hl) | hl
    · exact (hb l hl).2
    · cases d with
      | none => simp [grLines] at hl; subst hl; decide
      | some ds =>
        simp only [grLines, List.mem_append, List.mem_cons] at hl
        rcases hl with (rfl | hl) | (rfl | hl)
        · exact grHeader_facts.2
        · exact (eigLines_harmless ds l hl).2
        · decide
        · cases hl
    · exact (hm l hl).2
  rw [fileText, fileIter_terminated hone, List.append_nil, List.map_append, List.map_append, List.append_assoc, loadLines_skip _ _ _ (fun l hl => (hb l hl).1)]
  have hmid : ∀ c, loadLines (mid.map (· ++ ['\n'])) c = .ok c := by
    intro c
    have := loadLines_skip mid [] c (fun l hl => (hm l hl).1)
    rw [List.append_nil] at this
    rw [this]; rfl
  have hblank : ∀ c, loadLines (([] ++ ['\n']) :: mid.map (· ++ ['\n'])) c = .ok c := by
    intro c
    rw [loadLines, if_neg (by decide), if_neg (by decide), hmid]
  cases d with
  | none => simpa [grLines] using hblank {}
  | some ds =>
    simp only [grLines, List.map_append, List.map_cons, List.map_nil, List.cons_append, List.append_assoc, List.nil_append]
    rw [loadLines, if_pos grHeader_facts.1]
    have ht := takeWhile_table ds (mid.map (· ++ ['\n']))
    rw [List.nil_append] at ht
    have he : (List.mapIdx (fun i x => eigLine (i + 1) x) ds) = eigLines ds := rfl
    rw [he, ht, loadLines_skip _ _ _ (fun l hl => (eigLines_harmless ds l hl).1)]
    have := hblank { eigs := [] ++ ((eigLines ds).map (· ++ ['\n'])).map eigOf }
    simpa using this

theorem fileText_ne (before mid : List Str) (d : Option (List ℚ)) : (fileText before d mid []).isEmpty = false := by
  cases d <;> simp [fileText, grLines]

/-- **C81** The value read from a convergence file is the last eigenvalue written, to the five decimals printed (or 1e30 if it was too
large for its column), whatever harmless tests are in the file too. -/
theorem r_written (fs : FS) (j : Job) (before mid : List Str) (ds : List ℚ) (last : ℚ) (hl : ds.getLast? = some last) (hb : Harmless before)
    (hm : Harmless mid) (f : FileD) (hf : fs.get? (j.distRoot ++ c!".converge") = some f) (ht : f.text = fileText before (some ds) mid []) :
    ∃ v, rValue fs j = .ok (some v) ∧ ReadAs last v := by
  unfold rValue
  rw [hf]
  simp only [ht, fileText_ne, Bool.false_eq_true, if_false, load_file before mid (some ds) hb hm, bind, Except.bind]
  obtain ⟨pre, rfl⟩ : ∃ pre, ds = pre ++ [last] := by
    rw [List.getLast?_eq_some_iff] at hl; exact hl
  have e : ((eigLines (pre ++ [last])).map (· ++ ['\n'])).map eigOf =
      ((eigLines pre).map (· ++ ['\n'])).map eigOf ++ [eigOf (eigLine (pre.length + 1) last ++ ['\n'])] := by
    simp [eigLines, List.mapIdx_append]
  rw [e, List.getLast?_append]
  simp only [List.getLast?_singleton, Option.some_or]
  obtain ⟨v, hv, hr⟩ := eig_read (pre.length + 1) last
  rw [hv]
  exact ⟨v, rfl, hr⟩

/-- **C81** So a run counts as converged only if its largest eigenvalue is at most the limit, up to half a unit of the last decimal. -/
theorem converged_spec (fs : FS) (j : Job) (before mid : List Str) (ds : List ℚ) (last : ℚ) (hl : ds.getLast? = some last) (hmax : ∀ d ∈ ds, d ≤ last)
    (hb : Harmless before) (hm : Harmless mid) (f : FileD) (hf : fs.get? (j.distRoot ++ c!".converge") = some f)
    (ht : f.text = fileText before (some ds) mid []) (r : ℚ) (hr : r < 10 ^ 30) (b : Bool) (h : betterThan fs j r b = true) :
    ∀ d ∈ ds, d ≤ r + 1 / 200000 := by
  obtain ⟨v, hv, hread⟩ := r_written fs j before mid ds last hl hb hm f hf ht
  unfold betterThan at h
  rw [hv] at h
  simp only [decide_eq_true_eq] at h
  intro d hd
  have h1 := hmax d hd
  unfold ReadAs at hread
  split at hread
  · have := abs_le.mp hread
    norm_num at this
    linarith
  · subst hread
    exact absurd h (not_le.mpr hr)

/-- **C81** Without eigenvalues (covariance not invertible, or a single chain) the value cannot be read: the run then counts as converged or not as the caller
says for runs without results. -/
theorem no_eigenvalues (fs : FS) (j : Job) (before mid : List Str) (hb : Harmless before) (hm : Harmless mid) (f : FileD)
    (hf : fs.get? (j.distRoot ++ c!".converge") = some f) (ht : f.text = fileText before none mid []) (r : ℚ) (b : Bool) :
    rValue fs j = .error .index ∧ betterThan fs j r b = b := by
  have : rValue fs j = .error .index := by
    unfold rValue
    rw [hf]
    simp only [ht, fileText_ne, Bool.false_eq_true, if_false, load_file before mid none hb hm, bind, Except.bind]
    rfl
  exact ⟨this, by unfold betterThan; rw [this]⟩

/-- **C81** Fails in the check of convergence: a run that has samples but no readable convergence value is listed neither as missing nor
as not converged, for any limit. -/
theorem unreadable_not_listed_fails (fs : FS) (j : Job) (e : SErr) (h : rValue fs j = .error e ∨ rValue fs j = .ok none)
    (hc : chainExists fs j.chainRoot = true) (r : ℚ) (hr : r ≠ 0) : checkConverge fs r [j] = ([], []) := by
  have hb : betterThan fs j r true = true := by
    unfold betterThan; rcases h with h | h <;> rw [h]
  simp [checkConverge, hc, hb, hr]

/-- **C81** Listing is right for runs with a readable value. -/
theorem checkConverge_spec (fs : FS) (r : ℚ) (hr : r ≠ 0) (jobs : List Job) (n : Str) (h : ∀ j ∈ jobs, ∃ v, rValue fs j = .ok (some v)) :
    n ∈ (checkConverge fs r jobs).2 ↔ ∃ j ∈ jobs, j.name = n ∧ chainExists fs j.chainRoot = true ∧ ∃ v, rValue fs j = .ok (some v) ∧ r < v := by
  simp only [checkConverge, List.mem_map, List.mem_filter, Bool.and_eq_true, Bool.or_eq_true, decide_eq_true_eq, hr, false_or, Bool.not_eq_true']
  constructor
  · rintro ⟨j, ⟨hj, hc, hb⟩, rfl⟩
    obtain ⟨v, hv⟩ := h j hj
    refine ⟨j, hj, rfl, hc, v, hv, ?_⟩
    unfold betterThan at hb; rw [hv] at hb
    simpa using hb
  · rintro ⟨j, hj, rfl, hc, v, hv, hlt⟩
    refine ⟨j, ⟨hj, hc, ?_⟩, rfl⟩
    unfold betterThan; rw [hv]
    simpa using hlt

def exFile (d : Option (List ℚ)) : FS := [(c!"/g/base/plik/dist/base.converge", ⟨fileText [c!"Parameter autocorrelation lengths"] d [c!"Split tests"] [], 1⟩),
  (c!"/g/base/plik/base_1.txt", ⟨c!"x\n", 1⟩)]
example : rValue (exFile (some [1/1000, 1/8, 12345678/100000000])) exJob = .ok (some (12346/100000)) := by decide +kernel
example : rValue (exFile (some [1/1000, 12345678])) exJob = .ok (some (10 ^ 30)) := by decide +kernel
example : checkConverge (exFile none) (1/100) [exJob] = ([], []) ∧ checkConverge (exFile (some [1/8])) (1/100) [exJob] = ([], [c!"base"]) := by
  decide +kernel
example : Harmless [c!"Parameter autocorrelation lengths", c!"x  0.1  0.2  H_0"] := by
  intro l hl
  rcases List.mem_cons.mp hl with rfl | hl
  · decide
  · rw [List.mem_singleton] at hl; subst hl; decide

/-! ### the table of auto-correlations -/

/-- **C81** Fails with an empty table of auto-correlations: the file cannot be read at all, so its eigenvalues are lost too. -/
theorem auto_empty_fails (fs : FS) (j : Job) (before mid : List Str) (ds : List ℚ) (w : Nat) (rows : List (Str × Str × List ℚ))
    (hb : Harmless before) (hm : Harmless mid) (f : FileD)
    (hf : fs.get? (j.distRoot ++ c!".converge") = some f) (ht : f.text = fileText before (some ds) mid (autoLines w [] rows)) :
    rValue fs j = .error .index := by
  have hone : ∀ l ∈ before ++ grLines (some ds) ++ mid ++ autoLines w [] rows, OneLine l := by
    intro l hl
    simp only [List.mem_append] at hl
    rcases hl with ((hl | hl) | hl) | hl
    · exact (hb l hl).2
    · simp only [grLines, List.mem_append, List.mem_cons] at hl
      rcases hl with (rfl | hl) | (rfl | hl)
      · exact grHeader_facts.2
      · exact (eigLines_harmless ds l hl).2
      · decide
      · cases hl
    · exact (hm l hl).2
    · simp [autoLines] at hl
      rcases hl with rfl | rfl <;> decide
  have hne : f.text.isEmpty = false := by rw [ht]; simp [fileText, grLines]
  unfold rValue
  rw [hf]
  simp only [hne, Bool.false_eq_true, if_false]
  rw [ht, fileText, fileIter_terminated hone]
  have key : ∀ c, loadLines ((autoLines w [] rows).map (· ++ ['\n'])) c = .error .index := by
    intro c
    have e : (autoLines w [] rows).map (· ++ ['\n']) = [autoHeader ++ ['\n'], ['\n']] := by simp [autoLines]
    rw [e, loadLines, if_neg (by decide), if_pos (by decide)]
    rfl
  have h1 : loadLines ((before ++ grLines (some ds) ++ mid ++ autoLines w [] rows).map (· ++ ['\n'])) {} = .error .index := by
    simp only [List.map_append, List.append_assoc]
    rw [loadLines_skip _ _ _ (fun l hl => (hb l hl).1)]
    simp only [grLines, List.map_append, List.map_cons, List.map_nil, List.cons_append, List.append_assoc, List.nil_append]
    rw [loadLines, if_pos grHeader_facts.1]
    have he : (List.mapIdx (fun i x => eigLine (i + 1) x) ds) = eigLines ds := rfl
    rw [he, loadLines_skip _ _ _ (fun l hl => (eigLines_harmless ds l hl).1), loadLines, if_neg (by decide), if_neg (by decide),
      loadLines_skip _ _ _ (fun l hl => (hm l hl).1)]
    exact key _
  rw [h1]
  rfl

/-- **C81** Reading back a line of the table of auto-correlations gives the name and the values, if the parameter has a label. -/
theorem autoRow_read (w : Nat) (name label : Str) (xs : List ℚ) (hn : Token name) (hl : label ≠ []) (ht : Trim label)
    (hx : ∀ x ∈ xs, (fmtF 3 x).length < 8) :
    ∃ vs, autoRow xs.length (ljust w name ++ (xs.map (fun x => rjust 8 (fmtF 3 x))).flatten ++ ' ' :: label ++ ['\n']) = .ok (name, vs) ∧
      List.Forall₂ (fun x v => |v - x| ≤ 1 / 10 ^ 3 / 2) xs vs := by
  have hcont : ∀ (ys : List ℚ), (∀ x ∈ ys, (fmtF 3 x).length < 8) →
      splitWsN ys.length ((ys.map (fun x => rjust 8 (fmtF 3 x))).flatten ++ ' ' :: (label ++ ['\n'])) = ys.map (fmtF 3) ++ [label ++ ['\n']] := by
    intro ys
    induction ys with
    | nil =>
      intro _
      have hne : label ++ ['\n'] ≠ [] := by simp
      have hls : lstrip (' ' :: (label ++ ['\n'])) = label ++ ['\n'] := by
        have : lstrip ([' '] ++ (label ++ ['\n'])) = lstrip (label ++ ['\n']) := lstrip_blank_append (by intro c hc; simp at hc; subst hc; decide)
        rw [List.singleton_append] at this
        rw [this]
        apply lstrip_eq_self
        intro c hc
        cases label with
        | nil => exact absurd rfl hl
        | cons a l => simp at hc; subst hc; exact ht.1 _ rfl
      simp [splitWsN, hls]
    | cons y ys ih =>
      intro h
      have hy := h y (by simp)
      have ih := ih (fun x hx => h x (by simp [hx]))
      have e : ((y :: ys).map (fun x => rjust 8 (fmtF 3 x))).flatten ++ ' ' :: (label ++ ['\n']) =
          List.replicate (8 - (fmtF 3 y).length) ' ' ++ (fmtF 3 y ++ ((ys.map (fun x => rjust 8 (fmtF 3 x))).flatten ++ ' ' :: (label ++ ['\n']))) := by
        simp [rjust]
      rw [e, MargeStats.splitWsN_blank (blank_rep _), List.length_cons, MargeStats.splitWsN_tok (fmtF_token 3 y (by decide)), ih]
      · rfl
      · intro c hc
        cases ys with
        | nil => simp at hc; subst hc; decide
        | cons z zs =>
          have hz := h z (by simp)
          have e : ((z :: zs).map (fun x => rjust 8 (fmtF 3 x))).flatten ++ ' ' :: (label ++ ['\n']) =
              List.replicate (8 - (fmtF 3 z).length) ' ' ++ (fmtF 3 z ++ ((zs.map (fun x => rjust 8 (fmtF 3 x))).flatten ++ ' ' :: (label ++ ['\n']))) := by
            simp [rjust]
          rw [e] at hc
          exact MargeStats.sep_spaces (by omega) _ c hc
  have hsep : ∀ (ys : List ℚ), (∀ x ∈ ys, (fmtF 3 x).length < 8) → MargeStats.Sep ((ys.map (fun x => rjust 8 (fmtF 3 x))).flatten ++ ' ' :: (label ++ ['\n'])) := by
    intro ys h c hc
    cases ys with
    | nil => simp at hc; subst hc; decide
    | cons z zs =>
      have hz := h z (by simp)
      have e : ((z :: zs).map (fun x => rjust 8 (fmtF 3 x))).flatten ++ ' ' :: (label ++ ['\n']) =
          List.replicate (8 - (fmtF 3 z).length) ' ' ++ (fmtF 3 z ++ ((zs.map (fun x => rjust 8 (fmtF 3 x))).flatten ++ ' ' :: (label ++ ['\n']))) := by
        simp [rjust]
      rw [e] at hc
      exact MargeStats.sep_spaces (by omega) _ c hc
  have hsplit : splitWsN (xs.length + 1) (ljust w name ++ (xs.map (fun x => rjust 8 (fmtF 3 x))).flatten ++ ' ' :: label ++ ['\n']) =
      name :: (xs.map (fmtF 3) ++ [label ++ ['\n']]) := by
    have e : ljust w name ++ (xs.map (fun x => rjust 8 (fmtF 3 x))).flatten ++ ' ' :: label ++ ['\n'] =
        name ++ (List.replicate (w - name.length) ' ' ++ ((xs.map (fun x => rjust 8 (fmtF 3 x))).flatten ++ ' ' :: (label ++ ['\n']))) := by
      simp [ljust]
    rw [e, MargeStats.splitWsN_tok hn, MargeStats.splitWsN_blank (blank_rep _), hcont xs hx]
    by_cases hz : 0 < w - name.length
    · exact MargeStats.sep_spaces hz _
    · rw [show w - name.length = 0 by omega]
      simpa using hsep xs hx
  have hfl : ∀ ys : List ℚ, ∃ vs, floats (ys.map (fmtF 3)) = .ok vs ∧ List.Forall₂ (fun x v => |v - x| ≤ 1 / 10 ^ 3 / 2) ys vs := by
    intro ys
    induction ys with
    | nil => exact ⟨[], rfl, .nil⟩
    | cons y ys ih =>
      obtain ⟨vs, h1, h2⟩ := ih
      obtain ⟨_, v, hv, hb⟩ := fmtF_spec 3 y
      refine ⟨v :: vs, ?_, .cons hb h2⟩
      simp [floats, hv, h1, Except.map]
  obtain ⟨vs, h1, h2⟩ := hfl xs
  refine ⟨vs, ?_, h2⟩
  unfold autoRow
  rw [hsplit]
  simp [h1, bind, Except.bind, pure, Except.pure]

/-- **C81** Fails for a parameter without label: the last value of its line is lost. -/
theorem auto_label_fails : autoRow 2 (ljust 4 c!"x" ++ ([1/2, 1/4].map (fun x => rjust 8 (fmtF 3 x))).flatten ++ ' ' :: c!"" ++ ['\n']) =
    .ok (c!"x", [1/2]) := by decide +kernel

example : autoRow 2 (ljust 4 c!"x" ++ ([1/2, 1/4].map (fun x => rjust 8 (fmtF 3 x))).flatten ++ ' ' :: c!"X_0" ++ ['\n']) =
    .ok (c!"x", [1/2, 1/4]) := by decide +kernel

/-! ## the runs submitted -/

/-- nothing asked about convergence, checkpoints or importance sampling is unanswerable -/
def Answers (fs : FS) (now : Int) (j : Job) : Prop :=
  (∃ s, convergeStat fs j.chainRoot = .ok s) ∧
  ∀ p, j.parent = some p → (∃ b, chainFinished fs now p = .ok b) ∧ ∃ b, parentChanged fs j.chainRoot p.chainRoot = .ok b

/-- what each option asks for, in words of the run -/
def Selected (a : Args) (fs : FS) (now : Int) (f : Facts) (j : Job) : Prop :=
  (a.notexist = true → if a.isMinimize = true then f.minimumExists = false else chainExists fs j.chainRoot = false) ∧
  (a.minimizeFailed = true → f.minimumConverged = false) ∧
  (∀ n, a.notall = some n → a.isMinimize = true ∨ ∃ i, 1 ≤ i ∧ i ≤ n ∧ chainExists fs j.chainRoot i = false) ∧
  (a.isMinimize = true → f.wantMinimize = true) ∧
  (∀ p, j.parent = some p → a.parentConverge ≠ 0 → ∃ v, rValue fs p = .ok (some v) ∧ v ≤ a.parentConverge) ∧
  (a.converge ≠ 0 → ∃ v, rValue fs j = .ok (some v) ∧ a.converge < v) ∧
  (∀ r, a.checkpointRun = some r → wantCheckpointContinue fs j.chainRoot r = .ok true ∧ notRunning fs j.chainRoot now = true) ∧
  (∀ p, j.parent = some p → a.isMinimize = true ∨
    ((if a.importanceReady = true then chainFinished fs now p = .ok true else a.filters = true ∨ chainExists fs p.chainRoot = true) ∧
     (a.importanceChanged = true → parentChanged fs j.chainRoot p.chainRoot = .ok true) ∧
     (a.parentStopped = true → notRunning fs p.chainRoot now = true))) ∧
  (a.chainExists = true → chainExists fs j.chainRoot = true)

theorem better_true (fs : FS) (j : Job) (r : ℚ) : betterThan fs j r true = false ↔ ∃ v, rValue fs j = .ok (some v) ∧ r < v := by
  unfold betterThan
  rcases h : rValue fs j with e | (_ | v) <;> simp

theorem better_false (fs : FS) (j : Job) (r : ℚ) : betterThan fs j r false = true ↔ ∃ v, rValue fs j = .ok (some v) ∧ v ≤ r := by
  unfold betterThan
  rcases h : rValue fs j with e | (_ | v) <;> simp

theorem wantedFiles_iff (a : Args) (fs : FS) (f : Facts) (j : Job) : wantedFiles a fs f j = true ↔
    (a.notexist = true → if a.isMinimize = true then f.minimumExists = false else chainExists fs j.chainRoot = false) ∧
    (a.minimizeFailed = true → f.minimumConverged = false) ∧
    (∀ n, a.notall = some n → a.isMinimize = true ∨ ∃ i, 1 ≤ i ∧ i ≤ n ∧ chainExists fs j.chainRoot i = false) ∧
    (a.isMinimize = true → f.wantMinimize = true) := by
  have hall : ∀ n, allChainExists fs j.chainRoot n = false ↔ ∃ i, 1 ≤ i ∧ i ≤ n ∧ chainExists fs j.chainRoot i = false := by
    intro n
    rw [← Bool.not_eq_true, allChainExists_iff]
    push Not
    simp
  unfold wantedFiles
  generalize a.isMinimize = mi, a.notexist = ne, a.minimizeFailed = mf, chainExists fs j.chainRoot = ce, f.minimumExists = me,
    f.minimumConverged = mc, f.wantMinimize = wm at *
  cases hn : a.notall with
  | none => cases mi <;> cases ne <;> cases mf <;> cases ce <;> cases me <;> cases mc <;> cases wm <;> simp
  | some n =>
    have := hall n
    cases mi <;> cases ne <;> cases mf <;> cases ce <;> cases me <;> cases mc <;> cases wm <;> simp [this]

/-- **C82** The runs submitted are exactly those that satisfy every option given. -/
theorem wanted_iff (a : Args) (fs : FS) (now : Int) (f : Facts) (j : Job) (h : Answers fs now j) :
    ∃ b, wanted a fs now f j = .ok b ∧ (b = true ↔ Selected a fs now f j) := by
  obtain ⟨⟨s, hs⟩, hp⟩ := h
  have hparent : wantedParent a fs j = true ↔ (∀ p, j.parent = some p → a.parentConverge ≠ 0 → ∃ v, rValue fs p = .ok (some v) ∧ v ≤ a.parentConverge) := by
    unfold wantedParent
    cases hj : j.parent with
    | none => simp
    | some p => simp only [Bool.or_eq_true, decide_eq_true_eq, better_false, Option.some.injEq, forall_eq', ne_eq, or_iff_not_imp_left]
  have hconv : wantedConverge a fs j = true ↔ (a.converge ≠ 0 → ∃ v, rValue fs j = .ok (some v) ∧ a.converge < v) := by
    unfold wantedConverge
    simp only [Bool.or_eq_true, decide_eq_true_eq, Bool.not_eq_true', better_true, ne_eq, or_iff_not_imp_left]
  have hcheck : ∃ b, wantedCheckpoint a fs now j = .ok b ∧ (b = true ↔
      ∀ r, a.checkpointRun = some r → wantCheckpointContinue fs j.chainRoot r = .ok true ∧ notRunning fs j.chainRoot now = true) := by
    unfold wantedCheckpoint
    cases hc : a.checkpointRun with
    | none => exact ⟨true, rfl, by simp⟩
    | some r =>
      have : ∃ b, wantCheckpointContinue fs j.chainRoot r = .ok b := by
        unfold wantCheckpointContinue
        rw [hs]
        cases s with
        | none => exact ⟨_, rfl⟩
        | some x => exact ⟨_, rfl⟩
      obtain ⟨b, hb⟩ := this
      refine ⟨b && notRunning fs j.chainRoot now, by dsimp only; rw [hb]; rfl, ?_⟩
      simp [hb]
  have himp : ∃ b, wantedImportance a fs now j = .ok b ∧ (b = true ↔ ∀ p, j.parent = some p → a.isMinimize = true ∨
      ((if a.importanceReady = true then chainFinished fs now p = .ok true else a.filters = true ∨ chainExists fs p.chainRoot = true) ∧
       (a.importanceChanged = true → parentChanged fs j.chainRoot p.chainRoot = .ok true) ∧
       (a.parentStopped = true → notRunning fs p.chainRoot now = true))) := by
    unfold wantedImportance
    cases hj : j.parent with
    | none => exact ⟨true, rfl, by simp⟩
    | some p =>
      obtain ⟨⟨fin, hfin⟩, ch, hch⟩ := hp p hj
      simp only [Option.some.injEq, forall_eq', hfin, hch]
      generalize a.isMinimize = x1, a.importanceReady = x2, a.importanceChanged = x3, a.parentStopped = x4, a.filters = x5,
        chainExists fs p.chainRoot = x6, notRunning fs p.chainRoot now = x7
      cases x1
      · refine ⟨(if x2 then fin else x5 || x6) && (!x3 || ch) && (!x4 || x7), ?_, ?_⟩
        · cases x2 <;> cases x3 <;> cases fin <;> cases ch <;> cases x5 <;> cases x6 <;> rfl
        · cases x2 <;> cases x3 <;> cases x4 <;> cases fin <;> cases ch <;> cases x5 <;> cases x6 <;> simp
      · exact ⟨true, rfl, by simp⟩
  have hfiles := wantedFiles_iff a fs f j
  obtain ⟨c, hc, hciff⟩ := hcheck
  obtain ⟨i, hi, hiiff⟩ := himp
  refine ⟨wantedFiles a fs f j && wantedParent a fs j && wantedConverge a fs j && c && i && (!a.chainExists || chainExists fs j.chainRoot), ?_, ?_⟩
  · unfold wanted
    rw [hc, hi]
    cases wantedFiles a fs f j <;> cases wantedParent a fs j <;> cases wantedConverge a fs j <;> cases c <;> cases i <;> rfl
  · simp only [Bool.and_eq_true, hfiles, hparent, hconv, hciff, hiiff, Bool.or_eq_true, Bool.not_eq_true']
    unfold Selected
    have : (a.chainExists = false ∨ chainExists fs j.chainRoot = true) ↔ (a.chainExists = true → chainExists fs j.chainRoot = true) := by
      cases a.chainExists <;> simp
    rw [this]
    simp only [and_assoc]

/-- **C82** Fails for runs never analysed: with a convergence limit, a run whose convergence is unknown is never submitted. -/
theorem unknown_not_submitted_fails (a : Args) (fs : FS) (now : Int) (f : Facts) (j : Job) (hc : a.converge ≠ 0)
    (h : ¬ There fs (j.distRoot ++ c!".converge")) : wanted a fs now f j = .ok false := by
  have hr : rValue fs j = .ok none := by
    unfold rValue
    rw [Dict.get?_eq_none.mpr (by rw [← there_iff]; exact h)]
  have hw : wantedConverge a fs j = false := by
    simp [wantedConverge, betterThan, hr, hc]
  unfold wanted
  rw [hw]
  cases wantedFiles a fs f j <;> cases wantedParent a fs j <;> rfl

/-- **C82** Fails for importance runs when asked for finished parents: the parent's status file decides, so the run is submitted though the
parent has no samples; without the option it is not. -/
theorem ready_without_samples_fails :
    let p : Job := .mk c!"base" c!"/g/base" c!"/g/dist/base" none
    let j : Job := .mk c!"base_post" c!"/g/base_post" c!"/g/dist/base_post" (some p)
    let fs : FS := [(c!"/g/base.converge_stat", ⟨c!"0.01\nDone\n", 1⟩)]
    wanted { importanceReady := true } fs 1000 ⟨false, false, true⟩ j = .ok true ∧ wanted {} fs 1000 ⟨false, false, true⟩ j = .ok false ∧
    chainExists fs p.chainRoot = false := by
  decide +kernel

def exArgs : Args := { converge := 1/100, chainExists := true }
example : wanted exArgs (exFile (some [1/8])) 1000 ⟨false, false, true⟩ exJob = .ok true ∧
    wanted exArgs (exFile (some [1/800])) 1000 ⟨false, false, true⟩ exJob = .ok false ∧
    wanted exArgs (exFile none) 1000 ⟨false, false, true⟩ exJob = .ok false := by decide +kernel
example : Answers (exFile (some [1/8])) 1000 exJob := ⟨⟨none, by decide⟩, by intro p hp; cases hp⟩

end Verif.JobStatus
