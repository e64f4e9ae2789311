import Verif.Props.Convolve
import Verif.Props.CovMat
import Verif.Props.DESTheory
import Verif.Props.GridFiles
import Verif.Props.GridSetup
import Verif.Props.GuiEdit
import Verif.Props.IniFile
import Verif.Props.JobIndex
import Verif.Props.JobStatus
import Verif.Props.JobSubmit
import Verif.Props.Kde1DBins
import Verif.Props.Kde1DFlat
import Verif.Props.Kde2DSym
import Verif.Props.LoadCache
import Verif.Props.MargeStats

set_option linter.unusedSectionVars false
set_option linter.unusedVariables false

/-!
# What holds of properties that fail as a whole

Each theorem is the part that holds of a property refuted elsewhere; the docstring names the theorem it follows from, beside which there are
examples, and says what is missing.
-/

namespace Verif.Convolve
open Verif.Py (NErr Dict)
open Verif.Py.Np (searchsorted slice)
section
variable {K : Type} [Field K] [LinearOrder K]

/-- **C102**, the part that holds (`convolve1D_spec`).  Missing: kernels longer than the data (`convolve1D_length_fails`) and reused ids
(`cache_id_fails`). -/
theorem convolve1D_partial {A : FFT K} (hA : A.Ok) {heap : Nat → List K} {x y : Obj K} {mode : Mode} {largest : Nat} {c : Option (Cache A)}
    {use1 use2 : Bool} {r : List K × Option (Cache A)} (hy : y.val ≠ []) (hxy : y.val.length ≤ x.val.length) (hc : CacheOk A heap c)
    (hhx : heap x.id = x.val) (hhy : heap y.id = y.val) (h : convolve1D A x y mode largest c use1 use2 = .ok r) :
    r.1 = spec mode x.val y.val ∧ CacheOk A heap r.2 :=
  convolve1D_spec (A := A) (hA := hA) (heap := heap) (x := x) (y := y) (mode := mode) (largest := largest) (c := c) (use1 := use1) (use2 := use2) (r := r) (hy := hy) (hxy := hxy) (hc := hc) (hhx := hhx) (hhy := hhy) (h := h)

end
end Verif.Convolve

namespace Verif.Cov
open Verif.Py
section
variable {K : Type} [Field K] [LinearOrder K] [IsStrictOrderedRing K] [FloorRing K]

/-- **C89**, the part that holds (`correlation_spec`).  Missing: merged matrices, whose size is not recorded (`merged_correlation_fails`),
and matrices of one parameter (`single_parameter_fails`). -/
theorem correlation_partial {sqrt : K → K} {c : CovMat K} (h : Good c) (hsz : c.size = c.names.length) :
    ∃ m, correlation sqrt c = .ok (.mat m) ∧ Square c.names m ∧
      ∀ p q x dp dq, p ∈ c.names → q ∈ c.names → entry c p q = some x → entry c p p = some dp → entry c q q = some dq →
        get m (c.names.idxOf p) (c.names.idxOf q) = some (x / (sqrt dp * sqrt dq)) :=
  correlation_spec (sqrt := sqrt) (c := c) (h := h) (hsz := hsz)

end
end Verif.Cov

namespace Verif.DES
open Verif.Py Matrix
section
variable {K : Type} [LinearOrder K]

/-- **C160**, the part that holds (`theoryVector_spec`).  Missing: the choices of data types refuted in `Verif.Props.DES`
(`typeOrder_fails`, `onlyGalaxies_fails`). -/
theorem theoryVector_partial {L : Type} (usedTypes : List Str) (sel : List (Sel K)) (theta : List K) (files : List (Str × List (Row K)))
    (hpre : files.map Prod.fst <+: theoryOrder) (hused : ∀ t ∈ usedTypes, t ∈ files.map Prod.fst) (s : St K) (hl : loadAll usedTypes sel theta files = .ok s)
    (hm : ∀ b1 b2, (1, b1, b2) ∈ s.pairs → (0, b1, b2) ∈ s.pairs) (corr : Str → Nat → Nat → Nat → L) :
    theoryVector (files.map Prod.fst) usedTypes s corr = .ok (s.usedItems.map (corrOf (files.map Prod.fst) corr)) :=
  theoryVector_spec (L := L) (usedTypes := usedTypes) (sel := sel) (theta := theta) (files := files) (hpre := hpre) (hused := hused) (s := s) (hl := hl) (hm := hm) (corr := corr)

end
end Verif.DES

namespace Verif.GridFiles
open Verif.Py
open Verif.ParamNames (Glob fnmatchcase fnmatchcase_iff)
section
variable {K : Type} [Field K] [LinearOrder K] [IsStrictOrderedRing K] [FloorRing K]

/-- **C107**, the part that holds (`copy_chain_spec`).  Missing: fractions of one or more, extensions that match the chain, and runs already
shortened (`copy_all_fails`, `copy_ext_fails`, `copy_again_fails`). -/
theorem copy_chain_partial (a : Args K) (fs : FS) (j : JobD) (h : Asked a fs j) (himp : j.isImp = false) (h0 : 0 < a.frac) (h1 : a.frac < 1)
    (i : Nat) (hi : Upto fs j i) (hx : ∀ e ∈ a.exts, fnmatchcase (chainFile j.name i) (j.name ++ e) = false)
    (t : Str) (ht : Text fs (j.chainPath ++ chainFile j.name i) t) (hne : fileIter t ≠ []) :
    ∃ post, Tail a.frac (fileIter t) post ∧ (∀ q, Tail a.frac (fileIter t) q → q = post) ∧ post ≠ [] ∧
      (target (copyJob a fs j)).get? (j.relativePath ++ chainFile j.name i) = some (.text post.flatten) :=
  copy_chain_spec (a := a) (fs := fs) (j := j) (h := h) (himp := himp) (h0 := h0) (h1 := h1) (i := i) (hi := hi) (hx := hx) (t := t) (ht := ht) (hne := hne)

end
end Verif.GridFiles

namespace Verif.GridFiles
open Verif.Py
open Verif.ParamNames (Glob fnmatchcase fnmatchcase_iff)
section


/-- **C118**, the part that holds (`clean_default`).  Missing: importance sampled versions have names of this form and are removed too
(`clean_importance_fails`). -/
theorem clean_default_partial (fs : FS) (empty dist hasDist : Bool) (j : JobD) (hj : Plain j.name) (p : Str)
    (h : p ∈ cleanJob fs true empty dist hasDist (cleanExts none [c!"*"]) j) :
    ∃ f u, (p = j.chainPath ++ f ∨ p = j.distPath ++ f) ∧ (f = j.name ++ c!"." ++ u ∨ ∃ v, f = j.name ++ c!"_" ++ v ++ c!"." ++ u) :=
  clean_default (fs := fs) (empty := empty) (dist := dist) (hasDist := hasDist) (j := j) (hj := hj) (p := p) (h := h)

end
end Verif.GridFiles

namespace Verif.GridSetup
open Verif.Py Verif.Batch
section
variable {S J : Type} (items : S → List J)

/-- **C211**, the part that holds (`made_then_read`).  Missing: objects stored before chains or settings changed (`new_chains_fails`,
`new_settings_fails`). -/
theorem made_then_read_partial (w : World S J) (s : S) (hc : w.dirExists w.code = true) :
    read items (makeNew items w s).1 = ((makeNew items w s).1, .ok (some ⟨w.code, items s⟩)) :=
  made_then_read items (w := w) (s := s) (hc := hc)

end
end Verif.GridSetup

namespace Verif.GuiEdit
open Verif.Py
section


/-- **C234**, the part that holds (`edit_replaces`).  Missing: the scripts refuted in `Verif.Props.GuiEdit` (two plotters, braces, commas).
-/
theorem edit_replaces_partial (nl pre b post : List Str) (hb : Block b) (hp : ∀ l ∈ pre, startsWith tag l = false) : editAnalysis nl (pre ++ (b ++ post)) = addArg (pre ++ (nl ++ post)) :=
  edit_replaces (nl := nl) (pre := pre) (b := b) (post := post) (hb := hb) (hp := hp)

end
end Verif.GuiEdit

namespace Verif.IniFile
open Verif.Py
section


/-- **C85**, the part that holds (`comments_direct`).  Missing: DEFAULT files, where comments of settings skipped are given to the next
(`comments_leak_fails`). -/
theorem comments_direct_partial (fs env : Str → Option Str) (limit : Nat) (file text : Str) (keep ex : Bool) (ini : Ini)
    (h : load fs env limit file keep ex = .ok ini) (hf : fs file = some text)
    (pre cs post : List Str) (line : Str) (hlines : fileIter text = pre ++ (cs ++ line :: post))
    (hpre : ∀ x ∈ pre, lineKind x ≠ .stop) (hlast : ∀ x, pre.getLast? = some x → ∀ t, lineKind x ≠ .comment t)
    (ts : List Str) (hcs : cs.map lineKind = ts.map .comment) (k raw : Str) (hline : lineKind line = .setting k raw) :
    ini.comments.get? k = if ts = [] then none else some ts :=
  comments_direct (fs := fs) (env := env) (limit := limit) (file := file) (text := text) (keep := keep) (ex := ex) (ini := ini) (h := h) (hf := hf) (pre := pre) (cs := cs) (post := post) (line := line) (hlines := hlines) (hpre := hpre) (hlast := hlast) (ts := ts) (hcs := hcs) (k := k) (raw := raw) (hline := hline)

end
end Verif.IniFile

namespace Verif.JobQueue
open Verif.Py
section


open Classical in
/-- **C111**, the part that holds (`deleteJobs_spec`).  Missing: the options of the script (`delete_ids_fails`, `delete_range_fails`) and
python 3 (`py3_delete_fails`). -/
theorem deleteJobs_partial {x : Index} {live : List Job} (h : Rep x live) (hd : Distinct live) (s : Select) (valid : List Str)
    (num : Str → Nat) (hnum : (s.minmax.isSome ∨ s.min.isSome) → ∀ j ∈ live, idNumber j.id = .ok (num j.id)) :
    ∃ c x', deleteJobs x s valid true = .ok (c, x') ∧ Rep x' (live.filter (fun j => ¬ Selected s num j)) ∧ c.Nodup ∧
      ∀ i, i ∈ c ↔ i ∈ valid ∧ ∃ j ∈ live, j.id = i ∧ Selected s num j :=
  deleteJobs_spec (x := x) (live := live) (h := h) (hd := hd) (s := s) (valid := valid) (num := num) (hnum := hnum)

end
end Verif.JobQueue

namespace Verif.JobStatus
open Verif.Py
open Verif.GridFiles (FS FileD There has_there there_iff mem_chainLoop)
open Verif.NumFmt (fmtF fmtF_spec)
section


/-- **C80**, the part that holds (`needsUpdate_iff`).  Missing: other chains than the first (`needsUpdate_other_fails`) and missing files of
importance runs (`parentChanged_missing_fails`). -/
theorem needsUpdate_partial (fs : FS) (j : Job) :
    getDistNeedsUpdate fs j = true ↔ chainExists fs j.chainRoot = true ∧
      (¬ There fs (j.distRoot ++ c!".margestats") ∨
       ∃ s t, Date fs (chainName j.chainRoot 1) s ∧ Date fs (j.distRoot ++ c!".margestats") t ∧ t < s) :=
  needsUpdate_iff (fs := fs) (j := j)

end
end Verif.JobStatus

namespace Verif.JobStatus
open Verif.Py
open Verif.GridFiles (FS FileD There has_there there_iff mem_chainLoop)
open Verif.NumFmt (fmtF fmtF_spec)
section


/-- **C119**, the part that holds (`dodgy_spec`).  Missing: gaps of two or more (`dodgy_gap_fails`) and runs without chains
(`dodgy_none_fails`). -/
theorem dodgy_partial (fs : FS) (root : Str) (interval : Int) (n : Nat) (hn : 0 < n) (h : Consecutive fs root n) :
    ∃ b, chainsDodgy fs root interval = .ok b ∧
      (b = true ↔ There fs (chainName root (n + 2)) ∨
        ∃ i k s t, 1 ≤ i ∧ i ≤ n ∧ 1 ≤ k ∧ k ≤ n ∧ Date fs (chainName root i) s ∧ Date fs (chainName root k) t ∧ s - t > interval) :=
  dodgy_spec (fs := fs) (root := root) (interval := interval) (n := n) (hn := hn) (h := h)

end
end Verif.JobStatus

namespace Verif.JobStatus
open Verif.Py
open Verif.GridFiles (FS FileD There has_there there_iff mem_chainLoop)
open Verif.NumFmt (fmtF fmtF_spec)
section


/-- **C120**, the part that holds (`wanted_iff`).  Missing: runs whose convergence is unknown do not satisfy the option
(`unknown_not_submitted_fails`). -/
theorem wanted_partial (a : Args) (fs : FS) (now : Int) (f : Facts) (j : Job) (h : Answers fs now j) :
    ∃ b, wanted a fs now f j = .ok b ∧ (b = true ↔ Selected a fs now f j) :=
  wanted_iff (a := a) (fs := fs) (now := now) (f := f) (j := j) (h := h)

end
end Verif.JobStatus

namespace Verif.JobQueue
open Verif.Py
section


/-- **C91**, the part that holds (`resources_iff`).  Missing: requests that make no sense but divide evenly (`nonsense_accepted_fails`,
`zero_threads_fails`). -/
theorem resources_partial (s : Sources) (count : Option Nat) (q : Request) (h : Asks s count q) (r : Res) :
    jobResources s count = .ok r ↔
      r.cores = q.cores ∧ r.chains = q.chains ∧ r.nodes = q.nodes ∧ r.runs = q.runs ∧ q.chains ≠ 0 ∧ q.runs ≠ 0 ∧
      r.chains * r.runs * r.omp = r.cores :=
  resources_iff (s := s) (count := count) (q := q) (h := h) (r := r)

end
end Verif.JobQueue

namespace Verif.JobQueue
open Verif.Py
section


/-- **C92**, the part that holds (`precedence`).  Missing: the options of `same_line_fails`, `ext_env_fails` and `runsPerJob_fails`. -/
theorem precedence_partial (s : Sources) (key : Str) (default : Option Val) :
    (∀ v, s.kw key = some v → defaulted s key default = some v) ∧
    (∀ v, s.kw key = none → templateValue s key = some v → defaulted s key default = some v) ∧
    (∀ v, s.kw key = none → templateValue s key = none → s.env (c!"COSMOMC_" ++ key) = some v →
      defaulted s key default = some (.str v)) ∧
    (s.kw key = none → templateValue s key = none → s.env (c!"COSMOMC_" ++ key) = none → defaulted s key default = default) :=
  precedence (s := s) (key := key) (default := default)

end
end Verif.JobQueue

namespace Verif.JobQueue
open Verif.Py
section


/-- **C93**, the part that holds (`batch_spec`).  Missing: names that cannot be formed under python 3 (`long_names_fails`) and different
jobs of one name (`job_name_fails`). -/
theorem batch_partial (md5 : Str → Except QErr Str) (a : RunArgs) (n : Nat) (hn : 0 < n) (ha : a.runsPerJob = n)
    (hc : a.combineOne = none) (inis : List Str)
    (hname : ∀ l, l.length ≤ n → (∀ f ∈ l, f ∈ inis.map stripIni) → ∃ s, jobName md5 l = .ok s) :
    ∃ subs, runBatch md5 a inis = .ok subs ∧ Grouped n (inis.map stripIni) subs ∧
      ∀ s ∈ subs, s.sequential = false ∧ jobName md5 s.files = .ok s.name :=
  batch_spec (md5 := md5) (a := a) (n := n) (hn := hn) (ha := ha) (hc := hc) (inis := inis) (hname := hname)

end
end Verif.JobQueue

namespace Verif.Kde1D
open Verif.Py Verif.Py.Np Verif.Convolve
section
variable {K : Type} [Field K] [LinearOrder K] [IsStrictOrderedRing K] [FloorRing K]

/-- **C104**, the part that holds (`kdeBin_valid`).  Missing: the bin is the one below, not the nearest (`kdeBin_centre_fails`); limits must
contain the samples (`kdeBin_limits_fails`). -/
theorem kdeBin_valid_partial (v : List K) (rmin rmax : Option K) (nbins : Nat) (edge : K) (hn : 2 ≤ nbins) (he : 0 < edge)
    (r : List Int × K) (h : kdeBin v rmin rmax nbins edge = .ok r) (hlo : ∀ l, rmin = some l → ∀ x ∈ v, l ≤ x)
    (hhi : ∀ l, rmax = some l → ∀ x ∈ v, x ≤ l) (hR : 0 < r.2) :
    ∃ lo, (∀ l, rmin = some l → lo = l) ∧ r.1.length = v.length ∧ ∀ i, ∀ hi : i < v.length, ∃ k : Int, r.1[i]? = some k ∧ 0 ≤ k ∧ k < nbins ∧
      lo + (k : K) * (r.2 / ((nbins : K) - 1)) ≤ v[i] ∧ v[i] < lo + ((k : K) + 1) * (r.2 / ((nbins : K) - 1)) :=
  kdeBin_valid (v := v) (rmin := rmin) (rmax := rmax) (nbins := nbins) (edge := edge) (hn := hn) (he := he) (r := r) (h := h) (hlo := hlo) (hhi := hhi) (hR := hR)

end
end Verif.Kde1D

namespace Verif.Kde1D
open Verif.Py Verif.Py.Np Verif.Convolve
section
variable {K : Type} [Field K] [LinearOrder K] [IsStrictOrderedRing K] [FloorRing K]

/-- **C115**, the part that holds (`bounds_spec`).  Missing: before the range is determined every limit is reported
(`bounds_history_fails`). -/
theorem bounds_partial (p : Par K) (lo hi : Option K) (pmin pmax cmin cmax s : K) :
    (∀ l, (getBounds (initParam (initLimits p lo hi) pmin pmax cmin cmax s)).1 = some l ↔ lo = some l ∧ ¬ FarBot l cmin pmin s) ∧
    (∀ l, (getBounds (initParam (initLimits p lo hi) pmin pmax cmin cmax s)).2 = some l ↔ hi = some l ∧ ¬ FarTop l cmax pmax s) :=
  bounds_spec (p := p) (lo := lo) (hi := hi) (pmin := pmin) (pmax := pmax) (cmin := cmin) (cmax := cmax) (s := s)

end
end Verif.Kde1D

namespace Verif.Kde1D
open Verif.Py Verif.Py.Np Verif.Convolve Finset
section
variable {K : Type} [Field K] [LinearOrder K] [IsStrictOrderedRing K] [FloorRing K]

/-- **C114**, the part that holds (`flat_exact`).  Missing: coarse grids, where the window has a width below two bins
(`priorMask_nowindow_fails`). -/
theorem flat_exact_partial {conv : Conv K} {exp : K → K} {n w : Nat} {bins : List K} (hc : ConvOk conv) (he : ∀ x, 0 < exp x) (he0 : exp 0 = 1)
    (hw : 2 ≤ w) (hn : 2 * w + 1 ≤ n) (h c : K) (hcp : 0 < c) (hb : IsHist true true n bins (fun _ => c)) (order : Int) (h0 : 0 ≤ order)
    (h2 : order ≤ 2) (rounds : Nat) : gridDensity conv exp order rounds true true n w h bins = .ok (List.replicate n 1) :=
  flat_exact (conv := conv) (exp := exp) (n := n) (w := w) (bins := bins) (hc := hc) (he := he) (he0 := he0) (hw := hw) (hn := hn) (h := h) (c := c) (hcp := hcp) (hb := hb) (order := order) (h0 := h0) (h2 := h2) (rounds := rounds)

end
end Verif.Kde1D

namespace Verif.Kde2D
open Verif.Py Verif.Py.Np Verif.Convolve Finset
open Verif.Kde1D (soften iter)
section
variable {K : Type} [Field K] [LinearOrder K] [IsStrictOrderedRing K] [FloorRing K]
variable {conv : Conv2 K} {exp : K → K} {m n w : Nat} {W W' hist hist' : Arr K} {xb xt yb yt : Bool}

/-- **C127**, the part that holds (`density_scale`).  Missing: samples in the tail of the estimate (`bias_scale_fails`) and the settings
refuted in `Verif.Props.Kde2D`. -/
theorem density_scale_partial (hc : Conv2Ok conv) (he : ∀ x, 0 < exp x) {rx ry corr : K} (hx : rx ≠ 0) (hy : ry ≠ 0) (hcr : corr ^ 2 ≠ 1)
    (hw : 0 < winw2 rx ry) (hm : 2 ≤ hist.h) (hn : 2 ≤ hist.w) {order : Int} (ho : (xb || xt || yb || yt) = true → order ≤ 1) (rounds : Nat)
    {s : K} (hs : 0 < s)
    (hb : ∀ k < rounds, ∀ W, window exp rx ry corr (winw2 rx ry) = .ok W → ∀ P, raw2 conv exp order k xb xt yb yt (winw2 rx ry) W hist = .ok P →
      NoTail hist.h hist.w hist P.v)
    {r : Arr K} (hr : gridDensity2 conv exp order rounds xb xt yb yt rx ry corr hist = .ok r) :
    ∃ r', gridDensity2 conv exp order rounds xb xt yb yt rx ry corr (scale s hist) = .ok r' ∧ r'.h = r.h ∧ r'.w = r.w ∧
      ∀ i < r.h, ∀ j < r.w, r'.v i j = r.v i j :=
  density_scale (hc := hc) (he := he) (rx := rx) (ry := ry) (corr := corr) (hx := hx) (hy := hy) (hcr := hcr) (hw := hw) (hm := hm) (hn := hn) (order := order) (ho := ho) (rounds := rounds) (s := s) (hs := hs) (hb := hb) (r := r) (hr := hr)

end
end Verif.Kde2D

namespace Verif.LoadCache
open Verif.Py Verif.Py.Path Verif.ChainFiles
section
variable {K D : Type} [DecidableEq K]

/-- **C103**, the part that holds (`cache_sound`).  Missing: new chain files with old dates (`new_chain_ignored_fails`) and other limits
(`stale_limits_fails`). -/
theorem cache_sound_partial {w : World K D} {fs0 fs1 fs2 fs3 : FS K D} {d : Dirs} {root cachefile : Str} {cfg0 cfg : Cfg K}
    {t now : Nat} {m0 m : MC K D} {files : List Str}
    (hfiles : findFiles d root = .ok files)
    (h0 : Fresh w fs0 root cfg0 files m0)
    (h1 : (∀ p, p ≠ cachefile → fs1 p = fs0 p) ∧ fs1 cachefile = some (t, .pickle m0))
    (h2 : Touched fs1 fs2 cachefile t) (h2c : fs2 cachefile = fs1 cachefile)
    (hnc : cachefile ≠ root ++ c!".ranges" ∧ cachefile ≠ root ++ c!".properties.ini" ∧ cachefile ∉ files)
    (hpn : (fs2 (root ++ c!".paramnames")).isSome)
    (hlim : cfg.limits = cfg0.limits)
    (h3 : loadMCSamples w fs2 d root cachefile cfg false now = .ok (m, fs3)) :
    ∃ m', Fresh w fs2 root cfg files m' ∧ m.data = m'.data ∧ m.ranges = m'.ranges ∧ m.doneContours = m'.doneContours ∧
      m.version = m'.version :=
  cache_sound (w := w) (fs0 := fs0) (fs1 := fs1) (fs2 := fs2) (fs3 := fs3) (d := d) (root := root) (cachefile := cachefile) (cfg0 := cfg0) (cfg := cfg) (t := t) (now := now) (m0 := m0) (m := m) (files := files) (hfiles := hfiles) (h0 := h0) (h1 := h1) (h2 := h2) (h2c := h2c) (hnc := hnc) (hpn := hpn) (hlim := hlim) (h3 := h3)

end
end Verif.LoadCache

namespace Verif.MargeStats
open Verif.Py Verif.Bounds
section
variable {K : Type} [Field K] [LinearOrder K] [IsStrictOrderedRing K] [FloorRing K]

/-- **C106**, the part that holds (`load_toText`).  Missing: empty labels (`empty_label_fails`) and no parameters (`no_names_fails`). -/
theorem load_toText_partial {strF : K → Str} {m : Marge K} (h : m.Ok strF) :
    ∃ t, toText strF m = .ok t ∧ load t = .ok ⟨m.limits, m.names.map Par.rounded⟩ :=
  load_toText (strF := strF) (m := m) (h := h)

end
end Verif.MargeStats

namespace Verif.MargeStats
open Verif.Py Verif.Bounds
section
variable {K : Type} [Field K] [LinearOrder K] [IsStrictOrderedRing K] [FloorRing K]

/-- **C116**, the part that holds (`two_tail`).  Missing: densities that are high at an end (`force_twotail_fails`). -/
theorem two_tail_partial (s : Settings K) (d : Marg K) (c f : K) (h : (d.getLimits c).2.2 = (false, false))
    (hf : s.force = true ∨ d.hasBot = false ∨ d.hasTop = false ∨ d.P0 ≤ f ∨ d.P1 ≤ f) : (margeLimit s d c f).tag = c!"two" :=
  two_tail (s := s) (d := d) (c := c) (f := f) (h := h) (hf := hf)

end
end Verif.MargeStats
