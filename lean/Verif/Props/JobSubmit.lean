import Verif.Model.JobQueue
import Mathlib.Tactic.Linarith
import Mathlib.Tactic.Ring
import Mathlib.Tactic.IntervalCases

/-!
# Submitting jobs: resources (C30), option precedence (C31), batches (C32) and job scripts (C62)
-/

namespace Verif.JobQueue
open Verif.Py

/-! ## Resources -/

/-- the four numbers an accepted or refused request consists of -/
structure Request where
  cores : Int
  chains : Int
  nodes : Int
  runs : Int

/-- what the options ask for -/
def Asks (s : Sources) (count : Option Nat) (q : Request) : Prop :=
  intOption s c!"coresPerNode" (machineCores count) = .ok q.cores ∧
  intOption s c!"chainsPerNode" (perNode (machineCores count)) = .ok q.chains ∧
  intOption s c!"nodes" (max 1 (4 / perNode (machineCores count)) : Nat) = .ok q.nodes ∧
  intOption s c!"runsPerJob" 1 = .ok q.runs

/-- **C30**: a request is accepted iff the cores of a node can be shared equally by all chains of all runs on it; then
chains per node x runs x threads is exactly the number of cores -/
theorem resources_iff (s : Sources) (count : Option Nat) (q : Request) (h : Asks s count q) (r : Res) :
    jobResources s count = .ok r ↔
      r.cores = q.cores ∧ r.chains = q.chains ∧ r.nodes = q.nodes ∧ r.runs = q.runs ∧ q.chains ≠ 0 ∧ q.runs ≠ 0 ∧
      r.chains * r.runs * r.omp = r.cores := by
  obtain ⟨h1, h2, h3, h4⟩ := h
  unfold jobResources
  rw [h1, h2, h3, h4]
  show (if q.chains * q.runs = 0 then _ else _) = _ ↔ _
  by_cases h0 : q.chains * q.runs = 0
  · rw [if_pos h0]
    constructor
    · intro e; cases e
    · rintro ⟨_, _, _, _, a, b, _⟩
      rcases Int.mul_eq_zero.mp h0 with e | e
      · exact absurd e a
      · exact absurd e b
  · rw [if_neg h0]
    by_cases hm : q.cores % (q.chains * q.runs) = 0
    · rw [if_pos hm]
      constructor
      · intro e
        cases e
        refine ⟨rfl, rfl, rfl, rfl, ?_, ?_, Int.mul_ediv_cancel' (Int.dvd_of_emod_eq_zero hm)⟩
        · intro e; exact h0 (by rw [e, Int.zero_mul])
        · intro e; exact h0 (by rw [e, Int.mul_zero])
      · rintro ⟨a, b, c, d, _, _, e⟩
        have : q.cores / (q.chains * q.runs) = r.omp := by
          rw [← a, ← b, ← d, ← e]
          exact Int.mul_ediv_cancel_left _ (by rw [b, d]; exact h0)
        rw [this, ← a, ← b, ← c, ← d]
    · rw [if_neg hm]
      constructor
      · intro e; cases e
      · rintro ⟨a, b, c, d, _, _, e⟩
        exfalso
        apply hm
        rw [← a, ← b, ← d, ← e]
        exact Int.mul_emod_right _ _

/-- a request that cannot be shared equally is refused with an error -/
theorem resources_refused (s : Sources) (count : Option Nat) (q : Request) (h : Asks s count q)
    (hn : ¬ (q.chains * q.runs ∣ q.cores)) : jobResources s count = .error .exception ∨ jobResources s count = .error .zeroDivision := by
  obtain ⟨h1, h2, h3, h4⟩ := h
  unfold jobResources
  rw [h1, h2, h3, h4]
  show (if q.chains * q.runs = 0 then _ else _) = _ ∨ (if q.chains * q.runs = 0 then _ else _) = _
  by_cases h0 : q.chains * q.runs = 0
  · right; rw [if_pos h0]
  · left
    rw [if_neg h0, if_neg (fun e => hn (Int.dvd_of_emod_eq_zero e))]

theorem perNode_dvd (c : Nat) : perNode c ∣ c := by
  unfold perNode
  split
  · rename_i h; subst h; decide
  · split
    · rename_i h; exact ⟨4, by omega⟩
    · split
      · rename_i h; exact ⟨3, by omega⟩
      · exact ⟨c, by omega⟩

theorem perNode_pos {c : Nat} (h : 0 < c) : 0 < perNode c := by
  unfold perNode
  split
  · decide
  · split
    · omega
    · split
      · omega
      · decide

/-- sources that set nothing -/
def Silent (s : Sources) : Prop :=
  ∀ key, s.kw key = none ∧ (∀ t, s.template = some t → extractValue t (c!"DEFAULT_" ++ key) = none) ∧ s.env (c!"COSMOMC_" ++ key) = none

theorem defaulted_silent {s : Sources} (h : Silent s) (key : Str) (d : Option Val) : defaulted s key d = d := by
  obtain ⟨h1, h2, h3⟩ := h key
  unfold defaulted
  rw [h1, h3]
  cases ht : s.template with
  | none => dsimp only; cases d <;> rfl
  | some t => dsimp only; rw [h2 t ht]; cases d <;> rfl

theorem intOption_silent {s : Sources} (h : Silent s) (key : Str) (d : Int) : intOption s key d = .ok d := by
  unfold intOption
  rw [defaulted_silent h]
  rfl

/-- **C30**: the cores counted on are those of the machine; a shared machine with more than 64, or one of unknown size, counts as 8 -/
theorem machineCores_spec (count : Option Nat) : machineCores count ≤ 64 ∧
    (∀ c, count = some c → c ≤ 64 → machineCores count = c) ∧ ((count = none ∨ ∃ c, count = some c ∧ 64 < c) → machineCores count = 8) := by
  unfold machineCores
  cases count with
  | none => simp
  | some c =>
    simp only [Option.some.injEq, reduceCtorEq, false_or, forall_eq']
    split <;> refine ⟨by omega, by omega, ?_⟩
    · intro _; rfl
    · rintro ⟨d, rfl, h⟩; omega

example : machineCores (some 128) = 8 ∧ machineCores (some 48) = 48 ∧ machineCores none = 8 := by decide

/-- **C30**, defaults: with nothing set, every machine gives a valid division with at least one thread per chain and at least three
chains (four unless a node takes exactly three) -/
theorem default_resources (s : Sources) (h : Silent s) (count : Option Nat) (hc : 0 < machineCores count) :
    ∃ r, jobResources s count = .ok r ∧ r.cores = machineCores count ∧ r.runs = 1 ∧ 1 ≤ r.omp ∧ r.chains * r.omp = r.cores ∧
      1 ≤ r.nodes ∧ 3 ≤ r.nchains ∧ (r.chains ≠ 3 → 4 ≤ r.nchains) := by
  have hp := perNode_pos hc
  obtain ⟨k, hk⟩ := perNode_dvd (machineCores count)
  have hk0 : 0 < k := by
    rcases Nat.eq_zero_or_pos k with e | e
    · rw [e, Nat.mul_zero] at hk; omega
    · exact e
  have hkz : ((machineCores count : Nat) : Int) = (perNode (machineCores count) : Int) * k := by exact_mod_cast hk
  refine ⟨{ cores := machineCores count, chains := perNode (machineCores count), runs := 1, omp := k
            nodes := (max 1 (4 / perNode (machineCores count)) : Nat) }, ?_, rfl, rfl, ?_, ?_, ?_, ?_⟩
  · rw [resources_iff s count ⟨machineCores count, perNode (machineCores count), (max 1 (4 / perNode (machineCores count)) : Nat), 1⟩
      ⟨intOption_silent h _ _, intOption_silent h _ _, intOption_silent h _ _, intOption_silent h _ _⟩]
    refine ⟨rfl, rfl, rfl, rfl, ?_, Int.one_ne_zero, ?_⟩
    · show (perNode (machineCores count) : Int) ≠ 0
      omega
    · show (perNode (machineCores count) : Int) * 1 * k = _
      rw [hkz, Int.mul_one]
  · show (1 : Int) ≤ k; omega
  · exact hkz.symm
  · show (1 : Int) ≤ (max 1 (4 / perNode (machineCores count)) : Nat)
    have : 1 ≤ max 1 (4 / perNode (machineCores count)) := Nat.le_max_left _ _
    exact_mod_cast this
  · have key : ∀ p : Nat, 0 < p → 3 ≤ (max 1 (4 / p)) * p ∧ (p ≠ 3 → 4 ≤ (max 1 (4 / p)) * p) := by
      intro p hp
      by_cases h4 : 4 ≤ p
      · have : 1 * p ≤ max 1 (4 / p) * p := Nat.mul_le_mul_right _ (Nat.le_max_left _ _)
        omega
      · interval_cases p <;> decide
    obtain ⟨a, b⟩ := key _ hp
    refine ⟨?_, ?_⟩
    · show (3 : Int) ≤ ((max 1 (4 / perNode (machineCores count)) : Nat) : Int) * (perNode (machineCores count) : Int)
      exact_mod_cast a
    · intro hne
      show (4 : Int) ≤ ((max 1 (4 / perNode (machineCores count)) : Nat) : Int) * (perNode (machineCores count) : Int)
      have : perNode (machineCores count) ≠ 3 := fun e => hne (by show (perNode (machineCores count) : Int) = 3; exact_mod_cast e)
      exact_mod_cast b this

/-- a machine with 12 cores: one node, three chains of four threads -/
example : jobResources { kw := fun _ => none, env := fun _ => none } (some 12) = .ok ⟨12, 3, 1, 1, 4⟩ := by decide +kernel

/-- **C30**: a job with fewer runs than asked for gets at least as many threads per chain, never uses more than the cores of the
node, and leaves fewer cores idle than there are chains on the node; the numbers written into the script agree with each other -/
theorem adjust_spec (r : Res) (n : Nat) (seq : Bool) (hch : 0 < r.chains) (hn : 0 < n) (hnr : (n : Int) ≤ r.runs)
    (hr : r.chains * r.runs * r.omp = r.cores) (hc : 0 ≤ r.cores) :
    ∃ r', adjust r n seq = .ok r' ∧ r'.cores = r.cores ∧ r'.chains = r.chains ∧ r'.nodes = r.nodes ∧
      r'.runs = (if seq then 1 else (n : Int)) ∧ r.omp ≤ r'.omp ∧ r'.ppn ≤ r'.cores ∧ r'.cores - r'.ppn < r'.mpiPerNode ∧
      r'.mpiPerNode * r'.omp = r'.ppn ∧ r'.numSlots = r'.ppn * r'.nodes ∧ r'.numTasks = r'.mpiPerNode * r'.nodes := by
  have hruns : (0 : Int) < (if seq then 1 else (n : Int)) ∧ (if seq then 1 else (n : Int)) ≤ r.runs := by
    split <;> constructor <;> omega
  obtain ⟨hp, hle⟩ := hruns
  refine ⟨{ r with runs := if seq then 1 else (n : Int), omp := Int.fdiv r.cores (r.chains * if seq then 1 else (n : Int)) }, ?_, rfl, rfl,
    rfl, rfl, ?_⟩
  · unfold adjust
    dsimp only
    rw [if_neg (by have := Int.mul_pos hch hp; omega)]
  generalize hm : (if seq then (1 : Int) else (n : Int)) = m at hp hle ⊢
  have hpos : 0 < r.chains * m := Int.mul_pos hch hp
  have hfd : Int.fdiv r.cores (r.chains * m) = r.cores / (r.chains * m) := Int.fdiv_eq_ediv_of_nonneg _ (Int.le_of_lt hpos)
  rw [hfd]
  have hdm := Int.mul_ediv_add_emod r.cores (r.chains * m)
  have hlt := Int.emod_lt_of_pos r.cores hpos
  have hge := Int.emod_nonneg r.cores (Int.ne_of_gt hpos)
  have hrpos : 0 < r.chains * r.runs := Int.mul_pos hch (by omega)
  have homp : 0 ≤ r.omp := by
    by_contra hneg
    have : r.chains * r.runs * r.omp < 0 := Int.mul_neg_of_pos_of_neg hrpos (by omega)
    omega
  refine ⟨?_, ?_, ?_, rfl, rfl, ?_⟩
  · show r.omp ≤ r.cores / (r.chains * m)
    rw [Int.le_ediv_iff_mul_le hpos, ← hr, Int.mul_comm r.omp]
    apply Int.mul_le_mul_of_nonneg_right _ homp
    exact Int.mul_le_mul_of_nonneg_left hle (Int.le_of_lt hch)
  · show r.chains * m * (r.cores / (r.chains * m)) ≤ r.cores
    omega
  · show r.cores - r.chains * m * (r.cores / (r.chains * m)) < r.chains * m
    omega
  · show r.nodes * r.chains * m = r.chains * m * r.nodes
    ring

example : adjust ⟨12, 2, 1, 3, 2⟩ 2 false = .ok ⟨12, 2, 1, 2, 3⟩ := by decide +kernel

/-- requests without sense are accepted: no nodes, or no cores -/
theorem nonsense_accepted_fails :
    jobResources { kw := fun k => if k = c!"nodes" then some (.int 0) else none, env := fun _ => none } (some 8) = .ok ⟨8, 2, 0, 1, 4⟩ ∧
    jobResources { kw := fun k => if k = c!"coresPerNode" then some (.int 0) else none, env := fun _ => none } (some 8) =
      .ok ⟨0, 2, 2, 1, 0⟩ := by decide +kernel

/-- the default number of chains per node comes from the machine of the caller and not from `coresPerNode`: asking only for 16 cores per
node on a machine with 12 cores is refused -/
theorem cores_option_fails :
    jobResources { kw := fun k => if k = c!"coresPerNode" then some (.int 16) else none, env := fun _ => none } (some 12) =
      .error .exception := by decide +kernel

/-- `submitJob` called with more parameter files than `runsPerJob` gives chains without any thread -/
theorem zero_threads_fails : adjust ⟨4, 2, 2, 1, 2⟩ 3 false = .ok ⟨4, 2, 2, 3, 0⟩ := by decide +kernel

/-! ## Option precedence -/

/-- the default given in the template -/
def templateValue (s : Sources) (key : Str) : Option Val := (s.template.bind (fun t => extractValue t (c!"DEFAULT_" ++ key))).map Val.str

/-- **C31**: command line, then template, then environment, then the built in default; a value counts as given even if it is zero
or an empty text -/
theorem precedence (s : Sources) (key : Str) (default : Option Val) :
    (∀ v, s.kw key = some v → defaulted s key default = some v) ∧
    (∀ v, s.kw key = none → templateValue s key = some v → defaulted s key default = some v) ∧
    (∀ v, s.kw key = none → templateValue s key = none → s.env (c!"COSMOMC_" ++ key) = some v →
      defaulted s key default = some (.str v)) ∧
    (s.kw key = none → templateValue s key = none → s.env (c!"COSMOMC_" ++ key) = none → defaulted s key default = default) := by
  unfold templateValue defaulted
  refine ⟨?_, ?_, ?_, ?_⟩
  · intro v h
    rw [h]
  · intro v h1 h2
    rw [h1]
    cases ht : s.template with
    | none => rw [ht] at h2; cases h2
    | some t =>
      rw [ht] at h2
      dsimp only
      rw [Option.bind_some] at h2
      rw [h2]
  · intro v h1 h2 h3
    rw [h1, h3]
    cases ht : s.template with
    | none => rfl
    | some t =>
      rw [ht] at h2
      rw [Option.bind_some] at h2
      dsimp only
      rw [h2]
      rfl
  · intro h1 h2 h3
    rw [h1, h3]
    cases ht : s.template with
    | none => dsimp only; cases default <;> rfl
    | some t =>
      rw [ht] at h2
      rw [Option.bind_some] at h2
      dsimp only
      rw [h2]
      cases default <;> rfl

example : defaulted { kw := fun _ => some (.int 0), template := some c!"##DEFAULT_nodes: 3 ##", env := fun _ => some c!"5" } c!"nodes"
    (some (.int 1)) = some (.int 0) := by decide +kernel
example : defaulted { kw := fun _ => none, template := some c!"#!sh\n##DEFAULT_nodes: 3 ##\n", env := fun _ => some c!"5" } c!"nodes"
    (some (.int 1)) = some (.str c!"3") := by decide +kernel

theorem startsWith_false_of {pat s : Str} (h : ∀ t, s ≠ pat ++ t) : startsWith pat s = false := by
  rw [Bool.eq_false_iff]
  intro hs
  obtain ⟨t, ht⟩ := startsWith_iff.mp hs
  exact h t ht

/-- no match starts before the first place where the text occurs -/
theorem no_early_match {pat a w : Str} (hp : pat ≠ []) (h : contains pat (a ++ pat.dropLast) = false) :
    ∀ a1 a2, a = a1 ++ a2 → a2 ≠ [] → startsWith pat (a2 ++ (pat ++ w)) = false := by
  intro a1 a2 e hne
  apply startsWith_false_of
  intro t ht
  have hl : pat.length ≤ (a2 ++ pat.dropLast).length := by
    have : 0 < a2.length := List.length_pos_iff.mpr hne
    rw [List.length_append, List.length_dropLast]
    omega
  have h1 : pat <+: a2 ++ (pat ++ w) := ⟨t, ht.symm⟩
  have h2 : a2 ++ pat.dropLast <+: a2 ++ (pat ++ w) := by
    refine ⟨[pat.getLast hp] ++ w, ?_⟩
    rw [List.append_assoc, ← List.append_assoc pat.dropLast, List.dropLast_concat_getLast hp]
  obtain ⟨u, hu⟩ := List.prefix_of_prefix_length_le h1 h2 hl
  have : contains pat (a ++ pat.dropLast) = true := contains_iff.mpr ⟨a1, u, by rw [e, List.append_assoc, ← hu]; simp⟩
  rw [h] at this; cases this

theorem searchGroup_here {pat v b rest : Str} (hp : pat ≠ []) (hv : '\n' ∉ v) (hb : '\n' ∉ b) (hh : '#' ∉ b)
    (hr : rest = [] ∨ ∃ r, rest = '\n' :: r) : searchGroup pat (pat ++ (v ++ '#' :: '#' :: (b ++ rest))) = some v := by
  have htw : (v ++ '#' :: '#' :: (b ++ rest)).takeWhile (· ≠ '\n') = v ++ '#' :: '#' :: b := by
    have hall : ∀ c ∈ v ++ '#' :: '#' :: b, decide (c ≠ '\n') = true := by
      intro c hc
      simp only [List.mem_append, List.mem_cons] at hc
      simp only [ne_eq, decide_eq_true_eq]
      rintro rfl
      rcases hc with hc | hc | hc | hc
      · exact hv hc
      · exact absurd hc (by decide)
      · exact absurd hc (by decide)
      · exact hb hc
    rw [show v ++ '#' :: '#' :: (b ++ rest) = (v ++ '#' :: '#' :: b) ++ rest from by simp]
    rcases hr with rfl | ⟨r, rfl⟩
    · rw [List.append_nil]; exact Path.takeWhile_all hall
    · exact Path.takeWhile_append_stop hall (by simp)
  cases hpat : pat with
  | nil => exact absurd hpat hp
  | cons p ps =>
    rw [List.cons_append, searchGroup]
    have hs : startsWith (p :: ps) (p :: (ps ++ (v ++ '#' :: '#' :: (b ++ rest)))) = true :=
      startsWith_iff.mpr ⟨_, by rw [List.cons_append]⟩
    rw [if_pos hs, List.length_cons, List.drop_succ_cons, List.drop_left, htw, upToLast_append v hh]

/-- **C31**: the template default is the text between `##DEFAULT_key:` and the last `##` of the same line, without surrounding blanks; the
first such line counts -/
theorem extractValue_spec (name a v b rest : Str)
    (hfirst : contains (c!"##" ++ name ++ c!":") (a ++ (c!"##" ++ name ++ c!":").dropLast) = false)
    (hv : '\n' ∉ v) (hb : '\n' ∉ b) (hh : '#' ∉ b) (hr : rest = [] ∨ ∃ r, rest = '\n' :: r) :
    extractValue (a ++ (c!"##" ++ name ++ c!":" ++ (v ++ '#' :: '#' :: (b ++ rest)))) name = some (strip v) := by
  have hp : (c!"##" ++ name ++ c!":") ≠ [] := by simp
  unfold extractValue
  rw [searchGroup_skip (no_early_match hp hfirst), searchGroup_here hp hv hb hh hr]
  rfl

/-- without the marker there is no template default -/
theorem extractValue_none (template name : Str) (h : contains (c!"##" ++ name ++ c!":") template = false) :
    extractValue template name = none := by
  unfold extractValue
  rw [searchGroup_none h]
  rfl

example : extractValue c!"#!/bin/sh\n##RUN: mpirun ##PROGRAM## ##INI## ##\n##COMMAND##\n" c!"RUN" = some c!"mpirun ##PROGRAM## ##INI##" := by
  decide +kernel

/-- two settings on one line: the first swallows the second -/
theorem same_line_fails : extractValue c!"##DEFAULT_nodes:2## ##DEFAULT_queue:x##" c!"DEFAULT_nodes" = some c!"2## ##DEFAULT_queue:x" := by
  decide +kernel

/-- a further environment variable named by the caller is never read (the code looks for a variable called `ext_env`) -/
theorem ext_env_fails (s : Sources) (key e v : Str) (default : Option Val) (h1 : s.kw key = none) (h2 : s.template = none)
    (h3 : s.env (c!"COSMOMC_" ++ key) = none) (h4 : s.env c!"ext_env" = none) (_h5 : s.env e = some v) :
    defaulted s key default (some e) = default := by
  unfold defaulted
  rw [h1, h2, h3, h4]
  dsimp only
  cases default <;> simp

/-- **C31 is false for `runsPerJob`** when it comes from the command line parser: the parser always supplies a value, so the
template is never consulted and the environment wins over it -/
theorem runsPerJob_fails (t : Str) (env : Str → Option Str) (n d : Int) (h : argRunsPerJob none (env c!"COSMOMC_runsPerJob") = .ok n) :
    intOption { kw := fun k => if k = c!"runsPerJob" then some (.int n) else none, template := some t, env := env } c!"runsPerJob" d =
      .ok n ∧ (env c!"COSMOMC_runsPerJob" = none → n = 1) := by
  constructor
  · unfold intOption
    rw [(precedence _ _ _).1 (.int n) (by simp)]
    rfl
  · intro he
    rw [he] at h
    have : argRunsPerJob none none = .ok 1 := by decide +kernel
    rw [this] at h
    injection h with h
    exact h.symm

/-! ## Batches -/

/-- `hashlib.md5` of a text under python 3 -/
def md5Py3 (_ : Str) : Except QErr Str := .error .typeError

/-- the runs are grouped in order: all groups have `n` members except possibly the last -/
def Grouped (n : Nat) (runs : List Str) (subs : List Submit) : Prop :=
  subs.flatMap Submit.files = runs ∧ (∀ s ∈ subs.dropLast, s.files.length = n) ∧
  ∀ s, subs.getLast? = some s → 0 < s.files.length ∧ s.files.length ≤ n

theorem foldl_runSubmit (md5 : Str → Except QErr Str) (a : RunArgs) (n : Nat) (hn : 0 < n) (ha : a.runsPerJob = n)
    (hc : a.combining = false) (runs : List Str)
    (hname : ∀ l, l.length ≤ n → (∀ f ∈ l, f ∈ runs) → ∃ s, jobName md5 l = .ok s) : ∀ (inis : List Str) (st : RunState),
    (∀ i ∈ inis, stripIni i ∈ runs) → (∀ f ∈ st.pending, f ∈ runs) → st.pending.length < n → (∀ s ∈ st.sent, s.files.length = n ∧ s.sequential = false ∧ jobName md5 s.files = .ok s.name) →
    ∃ st', inis.foldlM (runSubmit md5 a) st = .ok st' ∧ st'.pending.length < n ∧ (∀ f ∈ st'.pending, f ∈ runs) ∧
      (∀ s ∈ st'.sent, s.files.length = n ∧ s.sequential = false ∧ jobName md5 s.files = .ok s.name) ∧
      st'.sent.flatMap Submit.files ++ st'.pending = st.sent.flatMap Submit.files ++ st.pending ++ inis.map stripIni
  | [], st, _, hp, h1, h2 => ⟨st, rfl, h1, hp, h2, by simp⟩
  | i :: inis, st, hi, hp, h1, h2 => by
    rw [List.foldlM_cons]
    have hp' : ∀ f ∈ st.pending ++ [stripIni i], f ∈ runs := by
      intro f hf
      rcases List.mem_append.mp hf with hf | hf
      · exact hp f hf
      · rw [List.mem_singleton] at hf
        subst hf
        exact hi i (List.mem_cons_self ..)
    have hi' : ∀ j ∈ inis, stripIni j ∈ runs := fun j hj => hi j (List.mem_cons_of_mem _ hj)
    by_cases hlen : st.pending.length + 1 < n
    · have hstep : runSubmit md5 a st i = .ok { st with pending := st.pending ++ [stripIni i] } := by
        unfold runSubmit
        dsimp only
        rw [hc, if_neg (by decide), if_neg (by rw [ha, List.length_append]; simp only [List.length_cons, List.length_nil]; omega)]
      rw [hstep]
      obtain ⟨st', a1, a2, a2', a3, a4⟩ := foldl_runSubmit md5 a n hn ha hc runs hname inis
        { st with pending := st.pending ++ [stripIni i] } hi' hp' (by simp; omega) h2
      exact ⟨st', a1, a2, a2', a3, by rw [a4]; simp⟩
    · obtain ⟨nm, hnm⟩ := hname (st.pending ++ [stripIni i]) (by simp; omega) hp'
      have hstep : runSubmit md5 a st i = .ok { pending := [], sent := st.sent ++ [⟨nm, st.pending ++ [stripIni i], false⟩] } := by
        unfold runSubmit
        dsimp only
        rw [hc, if_neg (by decide), if_pos (by rw [ha, List.length_append]; simp only [List.length_cons, List.length_nil]; omega), hnm]
        rfl
      rw [hstep]
      obtain ⟨st', a1, a2, a2', a3, a4⟩ := foldl_runSubmit md5 a n hn ha hc runs hname inis
        { pending := [], sent := st.sent ++ [⟨nm, st.pending ++ [stripIni i], false⟩] } hi' (by simp) hn (by
          intro s hs
          rcases List.mem_append.mp hs with hs | hs
          · exact h2 s hs
          · rw [List.mem_singleton] at hs
            subst hs
            exact ⟨by simp; omega, rfl, hnm⟩)
      exact ⟨st', a1, a2, a2', a3, by rw [a4]; simp⟩

/-- **C32**: with `n` runs per job (and names that can be formed for every `n` or fewer of the runs) the runs of all submitted jobs, in
order, are the wanted runs; every job but the last has `n` runs -/
theorem batch_spec (md5 : Str → Except QErr Str) (a : RunArgs) (n : Nat) (hn : 0 < n) (ha : a.runsPerJob = n)
    (hc : a.combineOne = none) (inis : List Str)
    (hname : ∀ l, l.length ≤ n → (∀ f ∈ l, f ∈ inis.map stripIni) → ∃ s, jobName md5 l = .ok s) :
    ∃ subs, runBatch md5 a inis = .ok subs ∧ Grouped n (inis.map stripIni) subs ∧
      ∀ s ∈ subs, s.sequential = false ∧ jobName md5 s.files = .ok s.name := by
  have hcomb : a.combining = false := by unfold RunArgs.combining; rw [hc]; rfl
  obtain ⟨st, h1, h2, h2', h3, h4⟩ := foldl_runSubmit md5 a n hn ha hcomb _ hname inis {}
    (fun i hi => List.mem_map_of_mem hi) (by simp) hn (by simp)
  simp only [List.flatMap_nil, List.nil_append] at h4
  unfold runBatch
  rw [h1]
  show ∃ subs, (if st.pending.length > 0 then _ else _) = _ ∧ _
  by_cases hp : st.pending.length > 0
  · obtain ⟨nm, hnm⟩ := hname st.pending (by omega) h2'
    have hl : lastName md5 a st.pending = .ok nm := by
      unfold lastName
      rw [hcomb, hnm]
      by_cases h : a.runsPerJob > 1
      · rw [if_pos h]; rfl
      · rw [if_neg h]; rfl
    rw [if_pos hp, hl]
    refine ⟨_, rfl, ⟨by rw [← h4]; simp, ?_, ?_⟩, ?_⟩
    · intro s hs
      rw [List.dropLast_concat] at hs
      exact (h3 s hs).1
    · intro s hs
      rw [List.getLast?_concat] at hs
      cases hs
      exact ⟨hp, by show st.pending.length ≤ n; omega⟩
    · intro s hs
      rcases List.mem_append.mp hs with hs | hs
      · exact (h3 s hs).2
      · rw [List.mem_singleton] at hs
        subst hs
        exact ⟨by show a.combineOne.isSome = false; rw [hc]; rfl, hnm⟩
  · rw [if_neg hp]
    have : st.pending = [] := List.length_eq_zero_iff.mp (by omega)
    refine ⟨st.sent, rfl, ⟨by rw [← h4, this]; simp, ?_, ?_⟩, fun s hs => (h3 s hs).2⟩
    · intro s hs; exact (h3 s (List.dropLast_subset _ hs)).1
    · intro s hs
      have := (h3 s (List.mem_of_getLast? hs)).1
      omega

example : runBatch md5Py3 { runsPerJob := 2 } [c!"a/x.ini", c!"a/y.ini", c!"a/z.ini"] =
    .ok [⟨c!"x-y", [c!"a/x", c!"a/y"], false⟩, ⟨c!"z", [c!"a/z"], false⟩] := by decide +kernel

/-- **C32**, combining: all runs go into one job, run one after another, under the given name -/
theorem batch_combined (md5 : Str → Except QErr Str) (a : RunArgs) (name : Str) (hne : name ≠ []) (hc : a.combineOne = some name)
    (hr : a.runsPerJob ≤ 1) (inis : List Str) :
    runBatch md5 a inis = .ok (if inis = [] then [] else [⟨name, inis.map stripIni, true⟩]) := by
  have hcomb : a.combining = true := by
    unfold RunArgs.combining; rw [hc]; simpa using hne
  have hfold : ∀ (inis : List Str) (st : RunState),
      inis.foldlM (runSubmit md5 a) st = .ok { st with pending := st.pending ++ inis.map stripIni } := by
    intro inis
    induction inis with
    | nil => intro st; simp; rfl
    | cons i inis ih =>
      intro st
      rw [List.foldlM_cons]
      have : runSubmit md5 a st i = .ok { st with pending := st.pending ++ [stripIni i] } := by
        unfold runSubmit
        dsimp only
        rw [hcomb, if_pos rfl]
      rw [this]
      refine Eq.trans (ih _) ?_
      simp
  unfold runBatch
  rw [hfold]
  show (if (([] : List Str) ++ inis.map stripIni).length > 0 then _ else _) = _
  cases inis with
  | nil => rfl
  | cons i inis =>
    rw [if_pos (by simp), if_neg (by simp)]
    have : lastName md5 a ([] ++ (i :: inis).map stripIni) = .ok name := by
      unfold lastName
      rw [if_neg (show ¬ a.runsPerJob > 1 by omega), hcomb, if_pos rfl, hc]
      rfl
    show (lastName md5 a ([] ++ (i :: inis).map stripIni)).bind _ = _
    rw [this]
    show Except.ok [Submit.mk name ([] ++ (i :: inis).map stripIni) a.combineOne.isSome] = _
    rw [hc]
    rfl

/-- names of fewer than two runs, and short names, never need the hash; so with one run per job the batch is right also under
python 3 -/
theorem jobName_short (md5 : Str → Except QErr Str) (files : List Str)
    (h : files.length < 2 ∨ (join ['-'] (files.map Path.basename)).length < 70) :
    jobName md5 files = .ok (join ['-'] (files.map Path.basename)) := by
  unfold jobName
  exact if_pos h

/-- **C32**, one run per job: whatever the names and the hash function, every run gets a job of its own, in order, named after it -/
theorem batch_single (md5 : Str → Except QErr Str) (a : RunArgs) (ha : a.runsPerJob = 1) (hc : a.combineOne = none)
    (inis : List Str) :
    ∃ subs, runBatch md5 a inis = .ok subs ∧ subs.map Submit.files = inis.map (fun i => [stripIni i]) ∧
      ∀ s ∈ subs, s.sequential = false ∧ jobName md5 s.files = .ok s.name := by
  obtain ⟨subs, h1, ⟨h2, h3, h4⟩, h5⟩ := batch_spec md5 a 1 Nat.one_pos ha hc inis
    (fun l hl _ => ⟨_, jobName_short md5 l (.inl (by omega))⟩)
  refine ⟨subs, h1, ?_, h5⟩
  have hone : ∀ s ∈ subs, s.files.length = 1 := by
    intro s hs
    rcases List.eq_nil_or_concat subs with h | ⟨l, x, h⟩
    · subst h; cases hs
    · subst h
      rw [List.concat_eq_append] at hs h3 h4
      rcases List.mem_append.mp hs with hs | hs
      · exact h3 s (by rw [List.dropLast_concat]; exact hs)
      · rw [List.mem_singleton] at hs
        subst hs
        have := h4 s (List.getLast?_concat ..)
        omega
  have hmap : ∀ (subs : List Submit) (l : List Str), (∀ s ∈ subs, s.files.length = 1) → subs.flatMap Submit.files = l →
      subs.map Submit.files = l.map (fun f => [f]) := by
    intro subs
    induction subs with
    | nil => rintro l - rfl; rfl
    | cons s subs ih =>
      rintro l h rfl
      obtain ⟨f, hf⟩ := List.length_eq_one_iff.mp (h s (List.mem_cons_self ..))
      rw [List.flatMap_cons, hf, List.map_cons, hf, List.singleton_append, List.map_cons,
        ih _ (fun s hs => h s (List.mem_cons_of_mem _ hs)) rfl]
  rw [hmap subs _ hone h2, List.map_map]
  rfl

/-- **C32**, several runs per job with short names: no hash is needed when the names of any `n` of the runs together have fewer than 70
characters -/
theorem batch_short (md5 : Str → Except QErr Str) (a : RunArgs) (n : Nat) (hn : 0 < n) (ha : a.runsPerJob = n)
    (hc : a.combineOne = none) (inis : List Str)
    (hshort : ∀ l : List Str, l.length ≤ n → (∀ f ∈ l, f ∈ inis.map stripIni) → (join ['-'] (l.map Path.basename)).length < 70) :
    ∃ subs, runBatch md5 a inis = .ok subs ∧ Grouped n (inis.map stripIni) subs ∧
      ∀ s ∈ subs, s.sequential = false ∧ s.name = join ['-'] (s.files.map Path.basename) := by
  obtain ⟨subs, h1, h2, h5⟩ := batch_spec md5 a n hn ha hc inis
    (fun l hl hm => ⟨_, jobName_short md5 l (.inr (hshort l hl hm))⟩)
  refine ⟨subs, h1, h2, fun s hs => ⟨(h5 s hs).1, ?_⟩⟩
  obtain ⟨a1, a2, a3⟩ := h2
  have hlen : s.files.length ≤ n := by
    rcases List.eq_nil_or_concat subs with h | ⟨l, x, h⟩
    · subst h; cases hs
    · subst h
      rw [List.concat_eq_append] at hs a2 a3
      rcases List.mem_append.mp hs with hs | hs
      · exact (a2 s (by rw [List.dropLast_concat]; exact hs)).le
      · rw [List.mem_singleton] at hs
        subst hs
        exact (a3 s (List.getLast?_concat ..)).2
  have := jobName_short md5 s.files (.inr (hshort _ hlen (fun f hf => a1 ▸ List.mem_flatMap.mpr ⟨s, hs, hf⟩)))
  rw [(h5 s hs).2] at this
  injection this

/-- **C32 is false of the code under python 3**: two runs in one job whose names together have 70 characters or more cannot be submitted:
the job name cannot be hashed (`TypeError`), and the program stops -/
theorem long_names_fails (f g : Str) (a : RunArgs) (ha : a.runsPerJob = 2) (hc : a.combineOne = none) (inis : List Str)
    (h : 70 ≤ (join ['-'] ([stripIni f, stripIni g].map Path.basename)).length) :
    runBatch md5Py3 a (f :: g :: inis) = .error .typeError := by
  have hcomb : a.combining = false := by unfold RunArgs.combining; rw [hc]; rfl
  have h1 : runSubmit md5Py3 a {} f = .ok { pending := [stripIni f] } := by
    unfold runSubmit
    dsimp only
    rw [hcomb, if_neg (by decide), if_neg (by rw [ha]; simp)]
    rfl
  have h2 : runSubmit md5Py3 a { pending := [stripIni f] } g = .error .typeError := by
    unfold runSubmit
    dsimp only
    rw [hcomb, if_neg (by decide), if_pos (by rw [ha]; simp)]
    have : jobName md5Py3 ([stripIni f] ++ [stripIni g]) = .error .typeError := by
      unfold jobName
      dsimp only
      rw [if_neg]
      · rfl
      · rintro (h' | h')
        · simp at h'
        · exact absurd h (Nat.not_le.mpr h')
    rw [this]
    rfl
  unfold runBatch
  rw [List.foldlM_cons, h1]
  show ((do let s ← runSubmit md5Py3 a { pending := [stripIni f] } g; inis.foldlM (runSubmit md5Py3 a) s) >>= _) = _
  rw [h2]
  rfl

/-- the names of two realistic runs are long enough -/
example : runBatch md5Py3 { runsPerJob := 2 } [c!"batch3/base_nnu_mnu_plikHM_TTTEEE_lowTEB_lensing_post_BAO.ini",
    c!"batch3/base_nnu_meffsterile_plikHM_TT_lowTEB.ini"] = .error .typeError := by decide +kernel

/-- different jobs of one batch can get the same name, so that the second overwrites the script and the index entry of the first -/
theorem job_name_fails : jobName md5Py3 [c!"a-b", c!"c"] = jobName md5Py3 [c!"a", c!"b-c"] := by decide +kernel

/-- the extension is removed from a file name -/
theorem stripIni_spec (base : Str) (h : contains c!".ini" base = false) : stripIni (base ++ c!".ini") = base := by
  unfold stripIni
  have : ∀ a1 a2, base = a1 ++ a2 → a2 ≠ [] → startsWith c!".ini" (a2 ++ c!".ini") = false := by
    intro a1 a2 e hne
    apply startsWith_false_of
    intro t ht
    match a2, hne with
    | [_], _ => simp at ht
    | [_, _], _ => simp at ht
    | [_, _, _], _ => simp at ht
    | p :: q :: r :: s :: a2, _ =>
      simp at ht
      have : contains c!".ini" base = true := contains_iff.mpr ⟨a1, a2, by
        rw [e, ht.1, ht.2.1, ht.2.2.1, ht.2.2.2.1]; simp⟩
      rw [h] at this; cases this
  rw [replaceStr_append this]
  have h2 := replaceStr_match (pat := c!".ini") [] [] (by decide)
  rw [List.append_nil] at h2
  rw [h2]
  simp [replaceStr_nil]

/-- but also everywhere else: such a run is submitted with a parameter file that does not exist -/
theorem stripIni_fails : stripIni c!"grid.initial/base.ini" = c!"gridtial/base" := by decide +kernel

/-! ## Job scripts -/

/-- a template: text, then placeholders each followed by text -/
def render (h : Str) : List (Str × Str) → Str
  | [] => h
  | (n, l) :: r => h ++ (hole n ++ render l r)

/-- the template with every known placeholder replaced by its value -/
def fill (vals : Dict Str Str) (h : Str) : List (Str × Str) → Str
  | [] => h
  | (n, l) :: r => h ++ ((vals.get? n).getD (hole n) ++ fill vals l r)

/-- characters used in placeholder names -/
abbrev NameChar (P : Char → Bool) (n : Str) : Prop := n ≠ [] ∧ ∀ c ∈ n, P c = true

/-- text that can stand after a placeholder: it reaches a character that cannot occur in a name before any `#` -/
def OpenR (P : Char → Bool) (l : Str) : Prop := ∃ a b c, l = a ++ b :: c ∧ '#' ∉ a ∧ b ≠ '#' ∧ P b = false

/-- text that can stand before a placeholder -/
def OpenL (P : Char → Bool) (l : Str) : Prop := ∃ a b c, l = a ++ b :: c ∧ '#' ∉ c ∧ b ≠ '#' ∧ P b = false

/-- no placeholder inside -/
def NoHole (P : Char → Bool) (l : Str) : Prop := ∀ n, NameChar P n → contains (hole n) l = false

/-- conditions on a template: names consist of `P` characters, text before and between placeholders is separated from them -/
def Good (P : Char → Bool) (h : Str) (rest : List (Str × Str)) : Prop :=
  NoHole P h ∧
  match rest with
  | [] => True
  | (n, l) :: r => OpenL P h ∧ NameChar P n ∧ (OpenR P l ∨ l = [] ∧ r = []) ∧ Good P l r

/-- one replacement on the template -/
def sub1 (m v : Str) (h : Str) : List (Str × Str) → Str × List (Str × Str)
  | [] => (h, [])
  | (n, l) :: r => if n = m then sub1 m v (h ++ v ++ l) r else (h, (n, (sub1 m v l r).1) :: (sub1 m v l r).2)

section
variable {P : Char → Bool}

/-- a match of a placeholder contains only `#` and name characters -/
theorem hole_chars {n : Str} (hn : NameChar P n) {c : Char} (hc : c ∈ hole n) : c = '#' ∨ P c = true := by
  unfold hole at hc
  simp only [List.mem_cons, List.mem_append, List.not_mem_nil, or_false] at hc
  rcases hc with h | h | h | h | h
  · exact .inl h
  · exact .inl h
  · exact .inr (hn.2 c h)
  · exact .inl h
  · exact .inl h

/-- no match starts inside text that is separated from what follows -/
theorem no_match_in_lit {n l : Str} (hn : NameChar P n) (ho : OpenL P l) (hh : NoHole P l) (t : Str) :
    ∀ a1 a2, l = a1 ++ a2 → a2 ≠ [] → startsWith (hole n) (a2 ++ t) = false := by
  intro a1 a2 e hne
  apply startsWith_false_of
  intro u hu
  obtain ⟨p, b, q, hl, hq, hb, hP⟩ := ho
  -- where does `a2` start relative to the separator
  by_cases hlen : a1.length ≤ p.length
  · -- `a2 = p2 ++ b :: q`
    have : ∃ p2, a2 = p2 ++ b :: q := by
      have h1 : (a1 ++ a2).drop a1.length = a2 := List.drop_left
      rw [← e, hl, List.drop_append_of_le_length hlen] at h1
      exact ⟨_, h1.symm⟩
    obtain ⟨p2, rfl⟩ := this
    by_cases hw : (hole n).length ≤ p2.length
    · -- match inside the text
      have h1 : hole n <+: p2 ++ b :: q ++ t := ⟨u, hu.symm⟩
      have h2 : p2 <+: p2 ++ b :: q ++ t := ⟨b :: q ++ t, by simp⟩
      obtain ⟨w, hw'⟩ := List.prefix_of_prefix_length_le h1 h2 hw
      have : contains (hole n) l = true := contains_iff.mpr ⟨a1, w ++ b :: q, by rw [e, ← hw']; simp⟩
      rw [hh n hn] at this; cases this
    · -- the separator is inside the match
      have hlt : p2.length < (hole n).length := by omega
      have h1 : (p2 ++ b :: q ++ t)[p2.length]? = some b := by simp
      rw [hu, List.getElem?_append_left hlt] at h1
      have hm : b ∈ hole n := List.mem_of_getElem? h1
      rcases hole_chars hn hm with h | h
      · exact hb h
      · rw [hP] at h; cases h
  · -- `a2` is a suffix of `q`
    have : ∃ q1, q = q1 ++ a2 := by
      have h1 : (a1 ++ a2).drop a1.length = a2 := List.drop_left
      rw [← e, hl, show p ++ b :: q = (p ++ [b]) ++ q from by simp,
        List.drop_append, List.drop_of_length_le (by simp; omega), List.nil_append] at h1
      refine ⟨q.take (a1.length - (p ++ [b]).length), ?_⟩
      rw [← h1, List.take_append_drop]
    obtain ⟨q1, rfl⟩ := this
    cases a2 with
    | nil => exact hne rfl
    | cons c a2 =>
      rw [hole, List.cons_append, List.cons_append] at hu
      injection hu with hc _
      subst hc
      exact hq (by simp)

theorem hole_ne_nil (n : Str) : hole n ≠ [] := by unfold hole; simp

theorem takeWhile_name {n : Str} (hn : NameChar P n) (hash : P '#' = false) (t : Str) :
    (n ++ '#' :: t).takeWhile P = n := Path.takeWhile_append_stop hn.2 hash

/-- no match of `hole m` starts inside `hole n` -/
theorem no_match_in_hole {m n t : Str} (hm : NameChar P m) (hn : NameChar P n) (hash : P '#' = false) (hne : n ≠ m)
    (ht : OpenR P t ∨ t = []) :
    ∀ a1 a2, hole n = a1 ++ a2 → a2 ≠ [] → startsWith (hole m) (a2 ++ t) = false := by
  have hashm : '#' ∉ m := fun h => by have := hm.2 _ h; rw [hash] at this; cases this
  have hashn : '#' ∉ n := fun h => by have := hn.2 _ h; rw [hash] at this; cases this
  -- what follows does not begin with `#` or with a name and `#`
  have ht1 : ∀ w, t ≠ '#' :: w := by
    rintro w rfl
    rcases ht with ⟨a, b, c, e, ha, hb, hP⟩ | e
    · cases a with
      | nil => injection e with e _; exact hb e.symm
      | cons x a => injection e with e _; exact ha (by rw [e]; simp)
    · cases e
  have ht2 : ∀ w, t ≠ m ++ '#' :: w := by
    rintro w rfl
    rcases ht with ⟨a, b, c, e, ha, hb, hP⟩ | e
    · -- the separator comes before the first `#`
      have hlen : a.length < m.length ∨ m.length ≤ a.length := by omega
      rcases hlen with hlen | hlen
      · have h1 : (m ++ '#' :: w)[a.length]? = some b := by rw [e]; simp
        rw [List.getElem?_append_left hlen] at h1
        have := hm.2 b (List.mem_of_getElem? h1)
        rw [hP] at this; cases this
      · have h1 : (a ++ b :: c)[m.length]? = some '#' := by rw [← e]; simp
        rcases Nat.lt_or_ge m.length a.length with h2 | h2
        · rw [List.getElem?_append_left h2] at h1
          exact ha (List.mem_of_getElem? h1)
        · have h3 : m.length = a.length := by omega
          rw [h3] at h1
          simp at h1
          exact hb h1
    · simp at e
  intro a1 a2 e ha2
  apply startsWith_false_of
  intro u hu
  unfold hole at e hu
  match a1, e with
  | [], e =>
    rw [List.nil_append] at e
    subst e
    simp only [List.cons_append, List.append_assoc, List.cons.injEq, true_and, List.nil_append] at hu
    have h1 := congrArg (List.takeWhile P) hu
    rw [takeWhile_name hn hash, takeWhile_name hm hash] at h1
    exact hne h1
  | [_], e =>
    simp only [List.cons_append, List.nil_append, List.cons.injEq] at e
    obtain ⟨_, rfl⟩ := e
    simp only [List.cons_append, List.append_assoc, List.cons.injEq, true_and, List.nil_append] at hu
    cases n with
    | nil => exact hn.1 rfl
    | cons x n =>
      simp only [List.cons_append, List.cons.injEq] at hu
      exact hashn (by rw [hu.1]; simp)
  | p :: q :: a1, e =>
    simp only [List.cons_append, List.cons.injEq] at e
    obtain ⟨_, _, e⟩ := e
    -- `a2` is a suffix of `n ++ "##"`
    rcases List.append_eq_append_iff.mp e with ⟨w, h1, h2⟩ | ⟨w, h1, h2⟩
    · -- `a1 = n ++ w`, `"##" = w ++ a2`
      match w, h2 with
      | [], h2 =>
        rw [List.nil_append] at h2
        subst h2
        simp only [List.cons_append, List.nil_append, List.append_assoc, List.cons.injEq, true_and] at hu
        exact ht2 _ hu
      | [_], h2 =>
        simp only [List.cons_append, List.nil_append, List.cons.injEq] at h2
        obtain ⟨_, rfl⟩ := h2
        simp only [List.cons_append, List.nil_append, List.cons.injEq, true_and] at hu
        exact ht1 _ hu
      | [_, _], h2 =>
        simp only [List.cons_append, List.nil_append, List.cons.injEq] at h2
        exact ha2 h2.2.2.symm
      | _ :: _ :: _ :: _, h2 => simp at h2
    · -- `n = a1 ++ w`, `a2 = w ++ "##"`
      cases w with
      | nil =>
        rw [List.nil_append] at h2
        subst h2
        simp only [List.cons_append, List.nil_append, List.append_assoc, List.cons.injEq, true_and] at hu
        exact ht2 _ hu
      | cons x w =>
        subst h2
        simp only [List.cons_append, List.append_assoc, List.cons.injEq] at hu
        exact hashn (by rw [h1, hu.1]; simp)

theorem openR_render {l : Str} {r : List (Str × Str)} (h : OpenR P l ∨ l = [] ∧ r = []) : OpenR P (render l r) ∨ render l r = [] := by
  rcases h with ⟨a, b, c, e, ha, hb, hP⟩ | ⟨rfl, rfl⟩
  · left
    cases r with
    | nil => exact ⟨a, b, c, e, ha, hb, hP⟩
    | cons x r =>
      obtain ⟨n, l'⟩ := x
      exact ⟨a, b, c ++ (hole n ++ render l' r), by rw [render, e]; simp, ha, hb, hP⟩
  · right; rfl

/-- joining text, a value without `#` and text gives text of the same kind -/
theorem noHole_join {h v l : Str} (ho : OpenL P h) (hh : NoHole P h) (hv : '#' ∉ v) (hl : NoHole P l) : NoHole P (h ++ v ++ l) := by
  intro n hn
  rw [Bool.eq_false_iff]
  intro hc
  obtain ⟨a, b, e⟩ := contains_iff.mp hc
  -- where does the match start
  rw [List.append_assoc, List.append_assoc] at e
  rcases List.append_eq_append_iff.mp e with ⟨w, h1, h2⟩ | ⟨w, h1, h2⟩
  · -- `a = h ++ w`, match in `v ++ l`
    rcases List.append_eq_append_iff.mp h2 with ⟨w2, h3, h4⟩ | ⟨w2, h3, h4⟩
    · have : contains (hole n) l = true := contains_iff.mpr ⟨w2, b, by rw [h4]; simp⟩
      rw [hl n hn] at this; cases this
    · -- starts inside `v`
      cases w2 with
      | nil =>
        rw [List.nil_append] at h4
        have : contains (hole n) l = true := contains_iff.mpr ⟨[], b, by rw [← h4]; simp⟩
        rw [hl n hn] at this; cases this
      | cons c w2 =>
        unfold hole at h4
        simp only [List.cons_append, List.cons.injEq] at h4
        exact hv (by rw [h3, ← h4.1]; simp)
  · -- starts inside `h`
    cases w with
    | nil =>
      rw [List.nil_append] at h2
      rw [List.append_nil] at h1
      subst h1
      cases v with
      | nil =>
        have : contains (hole n) l = true := contains_iff.mpr ⟨[], b, by
          rw [List.nil_append] at h2; rw [← h2]; simp⟩
        rw [hl n hn] at this; cases this
      | cons c v =>
        unfold hole at h2
        simp only [List.cons_append, List.cons.injEq] at h2
        exact hv (by rw [← h2.1]; simp)
    | cons c w =>
      have := no_match_in_lit hn ho hh (v ++ l) a (c :: w) h1 (by simp)
      rw [← h2] at this
      rw [startsWith_iff.mpr ⟨b, rfl⟩] at this
      cases this

theorem openL_append {a l : Str} (h : OpenL P l) : OpenL P (a ++ l) := by
  obtain ⟨p, b, c, e, h1, h2, h3⟩ := h
  exact ⟨a ++ p, b, c, by rw [e]; simp, h1, h2, h3⟩

theorem openR_append {a l : Str} (h : OpenR P l) : OpenR P (l ++ a) := by
  obtain ⟨p, b, c, e, h1, h2, h3⟩ := h
  exact ⟨p, b, c ++ a, by rw [e]; simp, h1, h2, h3⟩

/-- one `replace` acts on a template as it should -/
theorem replace_render (hash : P '#' = false) {m v : Str} (hm : NameChar P m) (hv : '#' ∉ v) :
    ∀ (rest : List (Str × Str)) (h : Str), Good P h rest →
      replaceStr (hole m) v (render h rest) = render (sub1 m v h rest).1 (sub1 m v h rest).2 ∧
      Good P (sub1 m v h rest).1 (sub1 m v h rest).2 ∧ (OpenR P h → OpenR P (sub1 m v h rest).1)
  | [], h, hg => by
    refine ⟨?_, hg, id⟩
    exact replaceStr_none (hg.1 m hm)
  | (n, l) :: r, h, hg => by
    obtain ⟨g1, g2, g3, g4, g5⟩ := hg
    rw [render, replaceStr_append (no_match_in_lit hm g2 g1 _)]
    by_cases hnm : n = m
    · subst hnm
      have hsub : sub1 n v h ((n, l) :: r) = sub1 n v (h ++ v ++ l) r := by rw [sub1, if_pos rfl]
      rw [hsub, replaceStr_match _ _ (hole_ne_nil n)]
      have hg' : Good P (h ++ v ++ l) r := by
        cases r with
        | nil => exact ⟨noHole_join g2 g1 hv g5.1, trivial⟩
        | cons x r =>
          obtain ⟨n', l'⟩ := x
          obtain ⟨k1, k2, k3⟩ := g5
          exact ⟨noHole_join g2 g1 hv k1, openL_append k2, k3⟩
      obtain ⟨i1, i2, i3⟩ := replace_render hash hm hv r (h ++ v ++ l) hg'
      refine ⟨?_, i2, fun ho => i3 (by rw [List.append_assoc]; exact openR_append ho)⟩
      rw [← i1]
      -- the replaced text is `h ++ v` followed by the replacement of the rest
      have e : render (h ++ v ++ l) r = (h ++ v) ++ render l r := by
        cases r with
        | nil => rfl
        | cons x r => obtain ⟨n', l'⟩ := x; simp [render]
      rw [e]
      have hcopy : ∀ a1 a2, h ++ v = a1 ++ a2 → a2 ≠ [] → startsWith (hole n) (a2 ++ render l r) = false := by
        intro a1 a2 e2 hne2
        rcases List.append_eq_append_iff.mp e2 with ⟨w, e3, e4⟩ | ⟨w, e3, e4⟩
        · -- starts in `v`
          apply startsWith_false_of
          intro u hu
          cases a2 with
          | nil => exact hne2 rfl
          | cons c a2 =>
            unfold hole at hu
            simp only [List.cons_append, List.cons.injEq] at hu
            exact hv (by rw [e4, hu.1]; simp)
        · cases w with
          | nil =>
            rw [List.nil_append] at e4
            subst e4
            apply startsWith_false_of
            intro u hu
            cases a2 with
            | nil => exact hne2 rfl
            | cons c a2 =>
              unfold hole at hu
              simp only [List.cons_append, List.cons.injEq] at hu
              exact hv (by rw [hu.1]; simp)
          | cons c w =>
            rw [e4, List.append_assoc]
            exact no_match_in_lit hm g2 g1 _ a1 (c :: w) e3 (by simp)
      rw [replaceStr_append hcopy]
      simp
    · have hsub : sub1 m v h ((n, l) :: r) = (h, (n, (sub1 m v l r).1) :: (sub1 m v l r).2) := by rw [sub1, if_neg hnm]
      rw [hsub]
      obtain ⟨i1, i2, i3⟩ := replace_render hash hm hv r l g5
      rw [replaceStr_append (no_match_in_hole hm g3 hash hnm (openR_render g4)), i1]
      refine ⟨rfl, ⟨g1, g2, g3, ?_, i2⟩, id⟩
      rcases g4 with g4 | ⟨rfl, rfl⟩
      · exact .inl (i3 g4)
      · exact .inr ⟨rfl, rfl⟩

theorem fill_sub1 (m v : Str) (vals : Dict Str Str) (hm : vals.get? m = none) : ∀ (rest : List (Str × Str)) (h : Str),
    fill vals (sub1 m v h rest).1 (sub1 m v h rest).2 = fill ((m, v) :: vals) h rest
  | [], h => rfl
  | (n, l) :: r, h => by
    by_cases hnm : n = m
    · subst hnm
      rw [sub1, if_pos rfl, fill_sub1 n v vals hm r, fill, Dict.get?_cons, if_pos rfl]
      cases r with
      | nil => simp [fill]
      | cons x r => obtain ⟨n', l'⟩ := x; simp [fill]
    · rw [sub1, if_neg hnm]
      simp only
      rw [fill, fill, fill_sub1 m v vals hm r, Dict.get?_cons, if_neg (Ne.symm hnm)]

theorem fill_nil : ∀ (rest : List (Str × Str)) (h : Str), fill [] h rest = render h rest
  | [], h => rfl
  | (n, l) :: r, h => by rw [fill, render, fill_nil r]; rfl

/-- **C62**: on a template as described every placeholder is replaced by its value, whatever the order of the values; unknown
placeholders and all other text are unchanged -/
theorem placeholders_partial (hash : P '#' = false) : ∀ (vals : Dict Str Str) (txt h : Str) (rest : List (Str × Str)), vals.WF →
    (∀ e ∈ vals, NameChar P e.1 ∧ '#' ∉ e.2) → replaceChar '\r' [] txt = render h rest → Good P h rest →
    replacePlaceholders txt vals = fill vals h rest := by
  have key : ∀ (vals : Dict Str Str) (h : Str) (rest : List (Str × Str)), vals.WF → (∀ e ∈ vals, NameChar P e.1 ∧ '#' ∉ e.2) →
      Good P h rest → vals.foldl (fun t v => replaceStr (hole v.1) v.2 t) (render h rest) = fill vals h rest := by
    intro vals
    induction vals with
    | nil => intro h rest _ _ _; exact (fill_nil rest h).symm
    | cons e vals ih =>
      obtain ⟨m, v⟩ := e
      intro h rest hw hv hg
      obtain ⟨h1, h2⟩ := hv (m, v) List.mem_cons_self
      obtain ⟨i1, i2, _⟩ := replace_render hash h1 h2 rest h hg
      have hw' : m ∉ Dict.keys vals ∧ Dict.WF vals := by
        unfold Dict.WF at hw ⊢
        rw [Dict.keys_cons, List.nodup_cons] at hw
        exact hw
      rw [List.foldl_cons]
      show vals.foldl _ (replaceStr (hole m) v (render h rest)) = _
      rw [i1, ih _ _ hw'.2 (fun e he => hv e (List.mem_cons_of_mem _ he)) i2, fill_sub1 m v vals (Dict.get?_eq_none.mpr hw'.1)]
  intro vals txt h rest hw hv ht hg
  unfold replacePlaceholders
  rw [ht]
  exact key vals h rest hw hv hg

end

/-- part of a real template -/
example : replacePlaceholders c!"#PBS -l nodes=##NUMNODES##:ppn=##PPN##  # No.\r\ncd ##ROOTDIR##\n##X##"
    [(c!"PPN", c!"16"), (c!"NUMNODES", c!"2"), (c!"ROOTDIR", c!"/home/me")] = c!"#PBS -l nodes=2:ppn=16  # No.\ncd /home/me\n##X##" := by
  decide +kernel

/-- the conditions hold for this template -/
example : Good Char.isUpper c!"nodes=" [(c!"NUMNODES", c!":ppn="), (c!"PPN", c!" x")] := by
  have nh : ∀ l : Str, '#' ∉ l → NoHole Char.isUpper l := fun l hl n _ =>
    contains_eq_false_of_not_mem (c := '#') (by unfold hole; simp) hl
  refine ⟨nh _ (by decide), ⟨c!"nodes", '=', [], rfl, by decide, by decide, by decide⟩, ⟨by decide, by decide⟩,
    .inl ⟨[], ':', c!"ppn=", rfl, by decide, by decide, by decide⟩, nh _ (by decide),
    ⟨c!":ppn", '=', [], rfl, by decide, by decide, by decide⟩, ⟨by decide, by decide⟩,
    .inl ⟨[], ' ', c!"x", rfl, by decide, by decide, by decide⟩, nh _ (by decide), trivial⟩

/-- **C62 is false in general**: a value that contains a placeholder is expanded again, depending on the order of the values -/
theorem nested_value_fails :
    replacePlaceholders c!"##PROGRAM##" [(c!"PROGRAM", c!"./run_##QUEUE##"), (c!"QUEUE", c!"q1")] = c!"./run_q1" ∧
    replacePlaceholders c!"##PROGRAM##" [(c!"QUEUE", c!"q1"), (c!"PROGRAM", c!"./run_##QUEUE##")] = c!"./run_##QUEUE##" := by
  decide +kernel

/-- and text between two placeholders can be taken for a placeholder -/
theorem adjacent_fails : replacePlaceholders c!"##QUEUE##PPN##OMP##" [(c!"PPN", c!"4"), (c!"QUEUE", c!"q"), (c!"OMP", c!"2")] =
    c!"##QUEUE4OMP##" := by decide +kernel

end Verif.JobQueue
