import Verif.Model.SubmitJob
import Verif.Props.JobSubmit
import Verif.Props.JobIndex

/-!
# Writing and submitting a job script (C212, C213)
-/

namespace Verif.SubmitJob
open Verif.Py Verif.JobQueue

set_option linter.unusedVariables false

variable (qsub : Str → Str → Option Str) (s : Settings) (cwd : Str) (w : World)

/-! ## Nothing happens unless wanted -/

/-- **C212** With `--dryrun`, or when only the arguments are checked, nothing is written or submitted. -/
theorem dry_run (a : Args) (h : a.dryrun = true ∨ a.files = none) : submit qsub s cwd w a = (w, .ok ()) := by
  unfold submit
  have : (if a.dryrun then none else a.files) = none := by
    rcases h with h | h
    · rw [h]; rfl
    · rw [h]; simp
  rw [this]

/-- **C212** If the number of cores cannot be shared out, nothing is written or submitted. -/
theorem refused (a : Args) (files : List Str) (hd : a.dryrun = false) (hf : a.files = some files) (e : QErr)
    (h : adjust s.res files.length a.sequential = .error e) : submit qsub s cwd w a = (w, .error (.queue e)) := by
  unfold submit
  rw [hd, hf]
  dsimp only
  simp only [Bool.false_eq_true, if_false, List.length_map]
  rw [h]

example : (match submit (fun _ _ => some []) { template := [], res := ⟨4, 3, 2, 2, 2⟩ } c!"/code" {} { name := c!"x", files := some [] } with
    | (w, r) => (w.files, w.sent, r)) = ([], [], .error (.queue .zeroDivision)) := by decide +kernel

/-! ## The commands -/

theorem set_append {d : Dict Str Str} {k : Str} (h : k ∉ d.keys) (e : Dict Str Str) (v : Str) :
    Dict.set (d ++ e : Dict Str Str) k v = d ++ Dict.set e k v := by
  induction d with
  | nil => rfl
  | cons x d ih =>
    obtain ⟨a, b⟩ := x
    rw [Dict.keys_cons, List.mem_cons, not_or] at h
    rw [List.cons_append]
    conv => lhs; unfold Dict.set
    rw [if_neg (by simpa using fun e : a = k => h.1 e.symm), ih h.2]
    rfl

/-- the values do not pile up: those of a run replace those of the run before -/
theorem runVals_again (vals : Dict Str Str) (h1 : c!"INI" ∉ vals.keys) (h2 : c!"INIBASE" ∉ vals.keys) (p q : Str) :
    runVals (runVals vals p) q = runVals vals q := by
  have e : ∀ p, runVals vals p = vals ++ [(c!"INI", p ++ c!".ini"), (c!"INIBASE", Path.basename p)] := by
    intro p
    unfold runVals
    have := set_append h1 [] (p ++ c!".ini")
    rw [List.append_nil] at this
    rw [this, set_append h2]
    rfl
  rw [e q, e p]
  unfold runVals
  rw [set_append h1, set_append h2]
  rfl

/-- the command of one run, from the values of the job and of this run only -/
def commandOf (s : Settings) (n : Int) (sequential : Bool) (vals : Dict Str Str) (p : Str) : Str :=
  match s.run with
  | some rc => replacePlaceholders rc (runVals vals p) ++ (if sequential then [] else c!" &")
  | none => plainCommand s n sequential p

theorem commands_gen (n : Int) (seq : Bool) (vals : Dict Str Str) (h1 : c!"INI" ∉ vals.keys) (h2 : c!"INIBASE" ∉ vals.keys) : ∀ (ps : List Str) (v : Dict Str Str),
    (∀ p, runVals v p = runVals vals p) → (commands s n seq v ps).2 = ps.map (commandOf s n seq vals)
  | [], v, _ => rfl
  | p :: ps, v, hv => by
    unfold commands
    unfold commandOf
    cases hr : s.run with
    | none =>
      have := commands_gen n seq vals h1 h2 ps v hv
      dsimp only
      rw [this, List.map_cons]
      unfold commandOf
      rw [hr]
    | some rc =>
      have := commands_gen n seq vals h1 h2 ps (runVals v p) (fun q => by rw [hv p, runVals_again vals h1 h2])
      dsimp only
      rw [this, List.map_cons, hv p]
      unfold commandOf
      rw [hr]

/-- **C212** A job has one command for each run, in order; each is made from the values of the job and its own parameter file. -/
theorem commands_spec (n : Int) (seq : Bool) (vals : Dict Str Str) (h1 : c!"INI" ∉ vals.keys) (h2 : c!"INIBASE" ∉ vals.keys) (ps : List Str) :
    (commands s n seq vals ps).2 = ps.map (commandOf s n seq vals) := commands_gen s n seq vals h1 h2 ps vals (fun _ => rfl)

example : (commands { template := [], res := ⟨4, 2, 2, 2, 1⟩, run := some c!"run ##INI## ##OMP##" } 4 false [(c!"OMP", c!"2")] [c!"g/a", c!"g/b"]).2 =
    [c!"run g/a.ini 2 &", c!"run g/b.ini 2 &"] := by decide +kernel

/-- **C212** Runs of one job are started together (`&`) unless they are to be done one after the other. -/
theorem background (n : Int) (vals : Dict Str Str) (p : Str) :
    commandOf s n false vals p = commandOf s n true vals p ++ (if s.run.isSome then c!" &" else ['&']) := by
  unfold commandOf
  cases s.run with
  | some rc => simp
  | none => unfold plainCommand; simp

example : commandOf { template := [], res := ⟨4, 2, 2, 2, 1⟩ } 4 true [] c!"g/a" = c!"time mpirun -np 4 ./cosmomc g/a.ini > ./scripts/a.ini.log 2>&1 " ∧
    commandOf { template := [], res := ⟨4, 2, 2, 2, 1⟩ } 4 false [] c!"g/a" = c!"time mpirun -np 4 ./cosmomc g/a.ini > ./scripts/a.ini.log 2>&1 &" := by decide +kernel

theorem base_keys (r : Res) (name : Str) (one : Bool) : c!"INI" ∉ (baseVals s r name cwd one).keys ∧ c!"INIBASE" ∉ (baseVals s r name cwd one).keys ∧
    c!"COMMAND" ∉ (baseVals s r name cwd one).keys := by
  have : (baseVals s r name cwd one).keys = [c!"JOBNAME", c!"OMP", c!"MEM_MB", c!"WALLTIME", c!"NUMNODES", c!"NUMRUNS", c!"NUMMPI", c!"CHAINSPERNODE", c!"PPN",
    c!"MPIPERNODE", c!"NUMTASKS", c!"NUMSLOTS", c!"ROOTDIR", c!"ONERUN", c!"PROGRAM", c!"QUEUE", c!"JOBCLASS"] := rfl
  rw [this]
  decide

/-- **C212** The value put for `##COMMAND##` is the list of the commands, one on each line; the others are those of the job. -/
theorem build_command (r : Res) (a : Args) (ps : List Str) :
    (build s r a cwd ps).1.get? c!"COMMAND" =
      some (join ['\n'] (ps.map (commandOf s r.nchains a.sequential (baseVals s r a.name cwd (ps.length = 1 || a.sequential))))) ∧
    (build s r a cwd ps).2 = replacePlaceholders s.template (build s r a cwd ps).1 := by
  refine ⟨?_, rfl⟩
  obtain ⟨h1, h2, _⟩ := base_keys s cwd r a.name (ps.length = 1 || a.sequential)
  unfold build
  dsimp only
  rw [Dict.get?_set_self, commands_spec s _ _ _ h1 h2]

example : (build { template := c!"A ##COMMAND## B", res := ⟨4, 2, 2, 2, 1⟩, run := some c!"##JOBNAME## ##INIBASE##" } ⟨4, 2, 2, 2, 1⟩
    { name := c!"x", files := none } c!"/code" [c!"g/a", c!"g/b"]).2 = c!"A x a &\nx b & B" := by decide +kernel

theorem commands_vals (n : Int) (seq : Bool) (k : Str) (hk : k ≠ c!"INI") (hk' : k ≠ c!"INIBASE") : ∀ (ps : List Str) (v : Dict Str Str),
    (commands s n seq v ps).1.get? k = v.get? k
  | [], v => rfl
  | p :: ps, v => by
    unfold commands
    cases s.run with
    | none => exact commands_vals n seq k hk hk' ps v
    | some rc =>
      dsimp only
      rw [commands_vals n seq k hk hk' ps]
      unfold runVals
      rw [Dict.get?_set_of_ne _ _ hk', Dict.get?_set_of_ne _ _ hk]

theorem build_value (r : Res) (a : Args) (ps : List Str) (k : Str) (hk : k ∉ [c!"INI", c!"INIBASE", c!"COMMAND"]) :
    (build s r a cwd ps).1.get? k = (baseVals s r a.name cwd (ps.length = 1 || a.sequential)).get? k := by
  simp only [List.mem_cons, List.not_mem_nil, or_false, not_or] at hk
  unfold build
  dsimp only
  rw [Dict.get?_set_of_ne _ _ hk.2.2, commands_vals s _ _ k hk.1 hk.2.1]

example : ((build { template := [], res := ⟨4, 2, 2, 2, 1⟩ } ⟨4, 2, 2, 2, 1⟩ { name := c!"x", files := none } c!"/code" [c!"g/a", c!"g/b"]).1.get? c!"ROOTDIR",
    (build { template := [], res := ⟨4, 2, 2, 2, 1⟩ } ⟨4, 2, 2, 2, 1⟩ { name := c!"x", files := none } c!"/code" [c!"g/a", c!"g/b"]).1.get? c!"ONERUN") =
    (some c!"/code", some c!"0") := by decide +kernel

/-- **C212** The processes started by the script fill the nodes that it asks for: `NUMSLOTS` is the number of runs times chains times threads. -/
theorem slots (r : Res) : r.numSlots = r.runs * r.nchains * r.omp ∧ r.numTasks = r.runs * r.nchains ∧ r.numSlots = r.numTasks * r.omp := by
  unfold Res.numSlots Res.numTasks Res.ppn Res.nchains
  have e1 : r.chains * r.runs * r.omp * r.nodes = r.runs * (r.nodes * r.chains) * r.omp := by
    rw [Int.mul_comm _ r.nodes, ← Int.mul_assoc, Int.mul_comm r.chains r.runs, ← Int.mul_assoc, Int.mul_comm r.nodes r.runs, Int.mul_assoc r.runs]
  refine ⟨e1, Int.mul_comm .., ?_⟩
  rw [e1, Int.mul_comm r.runs]

example : (⟨4, 2, 2, 2, 1⟩ : Res).numSlots = 8 := by decide +kernel

/-! ## Files, queue and index -/

/-- **C212** What a call does otherwise: the script is written (and the list of the runs if there are several); with `--no_sub` that is all;
without it, the script is given to the queue once, and the index changes only if the queue gives an answer. -/
theorem submit_spec (a : Args) (files : List Str) (hd : a.dryrun = false) (hf : a.files = some files) (r : Res)
    (h : adjust s.res files.length a.sequential = .ok r) :
    let ps := files.map stripIni
    let script := (build s r a cwd ps).2
    let cmd := replacePlaceholders s.qsub (build s r a cwd ps).1 ++ ' ' :: (scriptRoot a.name ++ c!"_subscript")
    let w1 := writeScript w a ps script
    submit qsub s cwd w a =
      if a.noSub then (w1, .ok ())
      else match qsub cmd script with
        | none => ({ w1 with sent := w.sent ++ [(cmd, script)] }, .error .called)
        | some out => answered { w1 with sent := w.sent ++ [(cmd, script)] } a ps out := by
  intro ps script cmd w1
  unfold submit
  rw [hd, hf]
  dsimp only
  simp only [Bool.false_eq_true, if_false]
  rw [show (files.map stripIni).length = files.length from List.length_map ..]
  rw [h]
  rfl

example : ((submit (fun _ _ => none) { template := c!"##JOBNAME##", res := ⟨4, 2, 2, 2, 1⟩ } c!"/code" {} { name := c!"x", files := some [c!"g/a.ini"] }).1.sent,
    (submit (fun _ _ => none) { template := c!"##JOBNAME##", res := ⟨4, 2, 2, 2, 1⟩ } c!"/code" {} { name := c!"x", files := some [c!"g/a.ini"] }).2) =
    ([(c!"qsub ./scripts/x_subscript", c!"x")], .error .called) := by decide +kernel

/-- the files written -/
theorem files_written (a : Args) (ps : List Str) (script : Str) :
    (writeScript w a ps script).files.get? (scriptRoot a.name ++ c!"_subscript") = some script ∧
    (writeScript w a ps script).files.get? (scriptRoot a.name ++ c!".batch") =
      (if 1 < ps.length then some (join ['\n'] ps) else w.files.get? (scriptRoot a.name ++ c!".batch")) ∧
    (∀ f, f ≠ scriptRoot a.name ++ c!"_subscript" → f ≠ scriptRoot a.name ++ c!".batch" → (writeScript w a ps script).files.get? f = w.files.get? f) ∧
    (writeScript w a ps script).sent = w.sent ∧ (writeScript w a ps script).index = w.index := by
  have hne : scriptRoot a.name ++ c!"_subscript" ≠ scriptRoot a.name ++ c!".batch" := fun e => absurd (List.append_cancel_left e) (by decide)
  unfold writeScript
  dsimp only
  by_cases h : ps.length > 1
  · rw [if_pos h, if_pos h]
    refine ⟨?_, ?_, fun f h1 h2 => ?_, rfl, rfl⟩
    · rw [Dict.get?_set_of_ne _ _ hne, Dict.get?_set_self]
    · rw [Dict.get?_set_self]
    · rw [Dict.get?_set_of_ne _ _ h2, Dict.get?_set_of_ne _ _ h1]
  · rw [if_neg h, if_neg h]
    refine ⟨?_, ?_, fun f h1 h2 => ?_, rfl, rfl⟩
    · rw [Dict.get?_set_self]
    · rw [Dict.get?_set_of_ne _ _ hne.symm]
    · rw [Dict.get?_set_of_ne _ _ h1]

example : (writeScript { files := [(c!"./scripts/y.sub", c!"3")] } { name := c!"x", files := none } [c!"g/a", c!"g/b"] c!"S").files =
    [(c!"./scripts/y.sub", c!"3"), (c!"./scripts/x_subscript", c!"S"), (c!"./scripts/x.batch", c!"g/a\ng/b")] := by decide +kernel

theorem answered_sent (a : Args) (ps : List Str) (out : Str) : (answered w a ps out).1.sent = w.sent := by
  unfold answered
  dsimp only
  split
  · rfl
  · split
    · rfl
    · split <;> rfl

theorem answered_script (a : Args) (ps : List Str) (out : Str) :
    (answered w a ps out).1.files.get? (scriptRoot a.name ++ c!"_subscript") = w.files.get? (scriptRoot a.name ++ c!"_subscript") := by
  have hne : scriptRoot a.name ++ c!"_subscript" ≠ scriptRoot a.name ++ c!".sub" := fun e => absurd (List.append_cancel_left e) (by decide)
  unfold answered
  dsimp only
  split
  · rfl
  · split
    · rfl
    · split <;> exact Dict.get?_set_of_ne _ _ hne

/-- **C212** Whatever happens, at most one script is given to the queue, and it is the one written. -/
theorem sent_once (a : Args) : (submit qsub s cwd w a).1.sent = w.sent ∨
    ∃ cmd script, (submit qsub s cwd w a).1.sent = w.sent ++ [(cmd, script)] ∧ a.noSub = false ∧ a.dryrun = false ∧
      (submit qsub s cwd w a).1.files.get? (scriptRoot a.name ++ c!"_subscript") = some script := by
  by_cases hd : a.dryrun = true
  · rw [dry_run qsub s cwd w a (.inl hd)]; exact .inl rfl
  · have hd' : a.dryrun = false := by simpa using hd
    cases hf : a.files with
    | none => rw [dry_run qsub s cwd w a (.inr hf)]; exact .inl rfl
    | some files =>
      cases h : adjust s.res files.length a.sequential with
      | error e => rw [refused qsub s cwd w a files hd' hf e h]; exact .inl rfl
      | ok r =>
        have := submit_spec qsub s cwd w a files hd' hf r h
        dsimp only at this
        rw [this]
        by_cases hn : a.noSub = true
        · rw [if_pos hn]
          exact .inl (files_written w a _ _).2.2.2.1
        · rw [if_neg hn]
          generalize replacePlaceholders s.qsub (build s r a cwd (files.map stripIni)).1 ++ ' ' :: (scriptRoot a.name ++ c!"_subscript") = cmd
          have hw := (files_written w a (files.map stripIni) (build s r a cwd (files.map stripIni)).2).1
          generalize (build s r a cwd (files.map stripIni)).2 = script at hw
          refine .inr ⟨cmd, script, ?_, by simpa using hn, hd', ?_⟩
          · cases qsub cmd script with
            | none => rfl
            | some out => rw [answered_sent]
          · cases qsub cmd script with
            | none => exact hw
            | some out =>
              dsimp only
              rw [answered_script]
              exact hw

/-! the answer of the queue -/

theorem yourJob_here (d rest : Str) (hd : ∀ c ∈ d, c.isDigit = true) : yourJob (c!"Your job " ++ d ++ ' ' :: rest) = some d := by
  have tk : ∀ (d : Str), (∀ c ∈ d, c.isDigit = true) → (d ++ ' ' :: rest).takeWhile Char.isDigit = d ∧ (d ++ ' ' :: rest).dropWhile Char.isDigit = ' ' :: rest := by
    intro d
    induction d with
    | nil => intro _; exact ⟨rfl, rfl⟩
    | cons c d ih =>
      intro h
      obtain ⟨e1, e2⟩ := ih (fun x hx => h x (List.mem_cons_of_mem _ hx))
      have hc := h c (List.mem_cons_self ..)
      refine ⟨?_, ?_⟩
      · rw [List.cons_append, List.takeWhile_cons_of_pos hc, e1]
      · rw [List.cons_append, List.dropWhile_cons_of_pos hc, e2]
  have e : c!"Your job " ++ d ++ ' ' :: rest = 'Y' :: (c!"our job " ++ (d ++ ' ' :: rest)) := by rw [List.append_assoc]; rfl
  rw [e]
  unfold yourJob
  have hdrop : ('Y' :: (c!"our job " ++ (d ++ ' ' :: rest))).drop 9 = d ++ ' ' :: rest := rfl
  rw [hdrop, (tk d hd).1, (tk d hd).2]
  have hs : startsWith c!"Your job " ('Y' :: (c!"our job " ++ (d ++ ' ' :: rest))) = true := startsWith_iff.mpr ⟨d ++ ' ' :: rest, rfl⟩
  rw [hs]
  rfl

theorem escByte_plain (q c : Char) (hq : q = '\'' ∨ q = '"') (h : c.isDigit = true ∨ c ∈ c!"Your job ") : escByte q c = [c] := by
  have hne : ∀ x, x ∈ ['\\', '\'', '"', '\n', '\t', '\r'] → c ≠ x := by
    intro x hx e
    subst e
    revert h hx
    generalize c = x
    intro h hx
    simp only [List.mem_cons, List.not_mem_nil, or_false] at hx
    rcases hx with rfl | rfl | rfl | rfl | rfl | rfl <;> revert h <;> decide
  unfold escByte
  rw [if_neg, if_neg (hne _ (by decide)), if_neg (hne _ (by decide)), if_neg (hne _ (by decide))]
  rintro (e | e)
  · exact hne '\\' (by decide) e
  · rcases hq with rfl | rfl
    · exact hne '\'' (by decide) e
    · exact hne '"' (by decide) e

theorem flatMap_plain (q : Char) (hq : q = '\'' ∨ q = '"') : ∀ (l : Str), (∀ c ∈ l, c.isDigit = true ∨ c ∈ c!"Your job ") → l.flatMap (escByte q) = l
  | [], _ => rfl
  | c :: l, h => by
    rw [List.flatMap_cons, escByte_plain q c hq (h c (List.mem_cons_self ..)), flatMap_plain q hq l (fun x hx => h x (List.mem_cons_of_mem _ hx))]
    rfl

theorem strip_bytes (q : Char) (hq : q = '\'' ∨ q = '"') (l : Str) : strip ('b' :: q :: (l ++ [q])) = 'b' :: q :: (l ++ [q]) := by
  have hw : isWs q = false := by rcases hq with rfl | rfl <;> decide
  have h1 : lstrip ('b' :: q :: (l ++ [q])) = 'b' :: q :: (l ++ [q]) := by
    unfold lstrip
    rw [List.dropWhile_cons_of_neg (by decide)]
  unfold strip
  rw [h1]
  unfold rstrip
  have e : 'b' :: q :: (l ++ [q]) = ('b' :: q :: l) ++ [q] := rfl
  rw [e, List.reverse_append]
  change ((q :: ('b' :: q :: l).reverse).dropWhile isWs).reverse = _
  rw [List.dropWhile_cons_of_neg (by simp [hw])]
  simp

/-- **C212** Grid Engine's answer `Your job 123 ("name") has been submitted` gives the id `123`. -/
theorem sge_id (d t : Str) (hd : ∀ c ∈ d, c.isDigit = true) : jobId (strip (bytesStr (c!"Your job " ++ d ++ ' ' :: t))) = some d := by
  unfold bytesStr
  dsimp only
  generalize hq : (if '\'' ∈ (c!"Your job " ++ d ++ ' ' :: t) ∧ '"' ∉ (c!"Your job " ++ d ++ ' ' :: t) then '"' else '\'') = q
  have hq' : q = '\'' ∨ q = '"' := by
    rw [← hq]
    split
    · exact .inr rfl
    · exact .inl rfl
  have e : (c!"Your job " ++ d ++ ' ' :: t).flatMap (escByte q) = c!"Your job " ++ d ++ ' ' :: t.flatMap (escByte q) := by
    have : c!"Your job " ++ d ++ ' ' :: t = (c!"Your job " ++ d ++ [' ']) ++ t := by simp
    rw [this, List.flatMap_append, flatMap_plain q hq' (c!"Your job " ++ d ++ [' '])]
    · simp
    · intro c hc
      simp only [List.mem_append] at hc
      rcases hc with (hc | hc) | hc
      · exact .inr hc
      · exact .inl (hd c hc)
      · simp at hc; subst hc; exact .inr (by decide)
  rw [strip_bytes q hq', e]
  have e2 : 'b' :: q :: ((c!"Your job " ++ d ++ ' ' :: t.flatMap (escByte q)) ++ [q]) = 'b' :: q :: (c!"Your job " ++ d ++ ' ' :: (t.flatMap (escByte q) ++ [q])) := by
    simp
  rw [e2]
  have hc : contains c!"Your job " ('b' :: q :: (c!"Your job " ++ d ++ ' ' :: (t.flatMap (escByte q) ++ [q]))) = true :=
    contains_iff.mpr ⟨['b', q], d ++ ' ' :: (t.flatMap (escByte q) ++ [q]), by simp⟩
  unfold jobId
  rw [if_pos hc]
  have hy := yourJob_here d (t.flatMap (escByte q) ++ [q]) hd
  generalize hu : c!"Your job " ++ d ++ ' ' :: (t.flatMap (escByte q) ++ [q]) = u at hy
  have s1 : ∀ (c : Char) (v : Str), c ≠ 'Y' → yourJob (c :: v) = yourJob v := by
    intro c v hc
    conv => lhs; unfold yourJob
    have : startsWith c!"Your job " (c :: v) = false := by
      cases hs : startsWith c!"Your job " (c :: v) with
      | false => rfl
      | true =>
        obtain ⟨t, ht⟩ := startsWith_iff.mp hs
        exact absurd (List.cons.inj ht).1 hc
    rw [this]
    rfl
  rw [s1 'b' _ (by decide), s1 q _ (by rcases hq' with rfl | rfl <;> decide), hy]

example : jobId (strip (bytesStr c!"Your job 4711 (\"x\") has been submitted\n")) = some c!"4711" := by decide +kernel

/-- **C212** After an answer of Grid Engine the index holds the job under its id, and every run of the job is found under its name; the id is written to
`.sub`; the index of other directories is unchanged. -/
theorem indexed (a : Args) (ps : List Str) (d t : Str) (hd : ∀ c ∈ d, c.isDigit = true) (x : Index)
    (hx : load (w.index (a.batchPath.getD c!"./scripts/")) = .ok x) :
    (answered w a ps (c!"Your job " ++ d ++ ' ' :: t)).2 = .ok () ∧
    (answered w a ps (c!"Your job " ++ d ++ ' ' :: t)).1.files.get? (scriptRoot a.name ++ c!".sub") = some d ∧
    (∃ x', load ((answered w a ps (c!"Your job " ++ d ++ ' ' :: t)).1.index (a.batchPath.getD c!"./scripts/")) = .ok x' ∧
      x'.jobs.get? d = some ⟨d, a.name, ps.map Path.basename⟩ ∧ x'.jobNames.get? a.name = some d ∧ (∀ p ∈ ps, x'.rootNames.get? (Path.basename p) = some d) ∧
      (∀ n, (∀ p ∈ ps, n ≠ Path.basename p) → x'.rootNames.get? n = x.rootNames.get? n)) ∧
    ∀ dir, dir ≠ a.batchPath.getD c!"./scripts/" → (answered w a ps (c!"Your job " ++ d ++ ' ' :: t)).1.index dir = w.index dir := by
  have hid := sge_id d t hd
  have hne : strip (bytesStr (c!"Your job " ++ d ++ ' ' :: t)) ≠ [] := by
    unfold bytesStr
    dsimp only
    rw [strip_bytes _ (by split <;> simp)]
    simp
  have e : answered w a ps (c!"Your job " ++ d ++ ' ' :: t) =
      ({ w with files := w.files.set (scriptRoot a.name ++ c!".sub") d,
                index := fun p => if p = a.batchPath.getD c!"./scripts/" then save (addJob x ⟨d, a.name, ps.map Path.basename⟩) (w.index (a.batchPath.getD c!"./scripts/")) else w.index p }, .ok ()) := by
    unfold answered
    dsimp only
    rw [if_neg hne, hid]
    dsimp only
    unfold addJobIndex
    rw [hx]
    rfl
  rw [e]
  refine ⟨rfl, ?_, ⟨addJob x ⟨d, a.name, ps.map Path.basename⟩, ?_, ?_, ?_, fun p hp => ?_, fun n hn => ?_⟩, fun dir hdir => ?_⟩
  · exact Dict.get?_set_self ..
  · dsimp only
    rw [if_pos rfl]
    rfl
  · exact Dict.get?_set_self ..
  · exact Dict.get?_set_self ..
  · change ((ps.map Path.basename).foldl (fun d' n => d'.set n d) x.rootNames).get? _ = _
    rw [get_foldl_set, if_pos (List.mem_map_of_mem hp)]
  · change ((ps.map Path.basename).foldl (fun d' n => d'.set n d) x.rootNames).get? _ = _
    rw [get_foldl_set, if_neg]
    intro hm
    obtain ⟨p, hp, e⟩ := List.mem_map.mp hm
    exact hn p hp e.symm
  · dsimp only
    rw [if_neg hdir]

example : (match load ((answered {} { name := c!"x", files := none } [c!"g/a", c!"g/b"] c!"Your job 17 x").1.index c!"./scripts/") with
    | .ok x => (x.jobNames.get? c!"x", x.rootNames.get? c!"b", x.rootNames.get? c!"c")
    | .error _ => (none, none, none)) = (some c!"17", some c!"17", none) := by decide +kernel

def exSettings : Settings := { template := c!"#PBS -l nodes=##NUMNODES##:ppn=##PPN##\n##COMMAND##\nwait\n", res := ⟨4, 2, 2, 2, 1⟩ }

example : (submit (fun _ _ => some c!"Your job 17 (\"x\") has been submitted\n") exSettings c!"/code" {}
    { name := c!"x", files := some [c!"g/a.ini", c!"g/b.ini"] }).1.files =
    [(c!"./scripts/x_subscript", c!"#PBS -l nodes=2:ppn=4\ntime mpirun -np 4 ./cosmomc g/a.ini > ./scripts/a.ini.log 2>&1 &\ntime mpirun -np 4 ./cosmomc g/b.ini > ./scripts/b.ini.log 2>&1 &\nwait\n"),
     (c!"./scripts/x.batch", c!"g/a\ng/b"), (c!"./scripts/x.sub", c!"17")] := by decide +kernel

/-! ## Failures -/

/-- each run of a job has its own log file -/
def OwnLog : Prop := ∀ (s : Settings) (n : Int) (seq : Bool) (a b : Str), a ≠ b → s.run = none →
  ¬ ∃ log, endsWith (c!" > " ++ log ++ c!" 2>&1 ") (commandOf s n true [] a) = true ∧ endsWith (c!" > " ++ log ++ c!" 2>&1 ") (commandOf s n true [] b) = true

/-- **C213 fails**: the log is named after the last part of the path (jobqueue.py:296-297), so runs of the same name in two grids, put in one job, write to one file. -/
theorem own_log_fails : ¬ OwnLog := by
  intro h
  exact absurd ⟨c!"./scripts/base.ini.log", by decide +kernel, by decide +kernel⟩ (h exSettings 4 true c!"grid1/base" c!"grid2/base" (by decide) rfl)

/-- the index is changed only if the queue gives an answer -/
def NoAnswer : Prop := ∀ (w : World) (a : Args) (ps : List Str), load ((answered w a ps []).1.index c!"./scripts/") = load (w.index c!"./scripts/")

/-- **C213 fails**: under python 3 no output is the text `b''` (jobqueue.py:310-312), so the test for no output is never true and the job is filed
under that id. -/
theorem no_answer_fails : ¬ NoAnswer := by
  intro h
  exact absurd (h {} { name := c!"x", files := none } [c!"g/a"]) (by decide +kernel)

/-- the id in the index is the one that the queue printed -/
def IdPrinted : Prop := ∀ (w : World) (a : Args) (ps : List Str) (id : Str), contains c!"Your job " id = false → a.batchPath = none →
  (answered w a ps (id ++ ['\n'])).1.files.get? (scriptRoot a.name ++ c!".sub") = some id

/-- **C213 fails**: for PBS the id is `b'123.server\n'` with quotes and escapes, so jobs can never be matched with the queue or cancelled. -/
theorem id_printed_fails : ¬ IdPrinted := by
  intro h
  exact absurd (h {} { name := c!"x", files := none } [c!"g/a"] c!"123.server" (by decide) rfl) (by decide +kernel)

/-- after an error nothing has been submitted -/
def ErrorFirst : Prop := ∀ (qsub : Str → Str → Option Str) (s : Settings) (w : World) (a : Args) (e : SErr) (out : Str), (∀ c t, qsub c t = some out) →
  (submit qsub s [] w a).2 = .error e → (submit qsub s [] w a).1.sent = w.sent

/-- **C213 fails**: the index is read only after the job is submitted (jobqueue.py:309-321); if it cannot be read the job runs but is not known. -/
theorem error_first_fails : ¬ ErrorFirst := by
  intro h
  exact absurd (h (fun _ _ => some c!"Your job 1 x") exSettings { index := fun _ => { file := some (.error .corrupt) } }
    { name := c!"x", files := some [c!"a.ini"] } (.queue .corrupt) _ (fun _ _ => rfl) (by decide +kernel)) (by decide +kernel)

end Verif.SubmitJob
