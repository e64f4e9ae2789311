import Verif.Props.AutoCorr
import Verif.Props.BatchArgs
import Verif.Props.BatchTags
import Verif.Props.BestFit
import Verif.Props.CMBlikes
import Verif.Props.CamSpecCoadd
import Verif.Props.ChainDump
import Verif.Props.ChainFiles
import Verif.Props.CobayaLoad
import Verif.Props.CobayaMemory
import Verif.Props.Combine
import Verif.Props.CommandLine
import Verif.Props.CommandLinePlots
import Verif.Props.Converge
import Verif.Props.ConvergeMeans

set_option linter.unusedSectionVars false
set_option linter.unusedVariables false

/-!
# What holds of properties that fail as a whole

Each theorem is the part that holds of a property refuted elsewhere; the docstring names the theorem it follows from, beside which there are
examples, and says what is missing.
-/

namespace Verif.AutoCorr
open Verif.Py (NErr)
open Verif.Convolve (autoConvolve AutoOk autoLin autoConvolve_spec autoConvolve_large ent)
section
variable {K : Type} [Field K] [LinearOrder K] [IsStrictOrderedRing K]
variable {pack : List K → Nat → List K} {idct1 : List K → List K}

/-- **C121**, the part that holds (`length_spec`).  Missing: correlations that never fall below the threshold (`length_never_fails`). -/
theorem length_partial (mc : K) (corr : List K) (ix : Nat) (h : ix < corr.length) (hi : at' corr ix ≤ mc * at' corr 0) (hlt : ∀ k < ix, mc * at' corr 0 < at' corr k) :
    lengthOf mc corr = at' corr 0 + 2 * ((List.range' 1 (ix - 1)).map (at' corr)).sum :=
  length_spec (mc := mc) (corr := corr) (ix := ix) (h := h) (hi := hi) (hlt := hlt)

end
end Verif.AutoCorr

namespace Verif.Batch
open Verif.Py Verif.IniFile Verif.ParamNames
section


/-- **C98**, the part that holds (`option_order`).  Missing: the options of the job come after those of the data, not before
(`job_over_data_fails`). -/
theorem option_order_partial (g : GridOpts) (j : Info) (jobExtra : Option (Dict Str (Dict Str Str))) (jobOpts : Option (Dict Str Str))
    (cov : Dict Str Str) (hw : ∀ s ∈ sources g j jobExtra jobOpts cov, s.WF) (ini : Ini)
    (hi : jobIni g j jobExtra jobOpts cov = .ok ini) (k v : Str) (h1 : k ≠ c!"action") (h2 : k ≠ c!"start_at_bestfit")
    (h3 : k ≠ c!"file_root") (h4 : Dict.get? cov k = none) :
    (lookup (dictsL j.data.params) k = some v → Dict.get? ini.params k = some v) ∧
    (lookup (dictsL j.data.params) k = none → Dict.get? (jobOpts.getD []) k = some v → Dict.get? ini.params k = some v) ∧
    (lookup (dictsL j.data.params) k = none → Dict.get? (jobOpts.getD []) k = none → Dict.get? (g.extraOpts.getD []) k = some v →
      Dict.get? ini.params k = some v) ∧
    (lookup (dictsL j.data.params) k = none → Dict.get? (jobOpts.getD []) k = none → Dict.get? (g.extraOpts.getD []) k = none →
      Dict.get? ini.params k = lookup (j.params.flatMap (paramSources g jobExtra)) k) :=
  option_order (g := g) (j := j) (jobExtra := jobExtra) (jobOpts := jobOpts) (cov := cov) (hw := hw) (ini := ini) (hi := hi) (k := k) (v := v) (h1 := h1) (h2 := h2) (h3 := h3) (h4 := h4)

end
end Verif.Batch

namespace Verif.Batch
open Verif.Py Verif.IniFile Verif.JobQueue
section


/-- **C94**, the part that holds (`normedTag_inj`).  Missing: names with separators (`normedTag_inj_fails`) and orders
(`matches_order_fails`). -/
theorem normedTag_inj_partial {d d' : DS} (h : ∀ n ∈ d.names, '_' ∉ n) (h' : ∀ n ∈ d'.names, '_' ∉ n) (hn : d.names ≠ [])
    (hn' : d'.names ≠ []) (e : d.normedTag none = d'.normedTag none) : d.names.Perm d'.names :=
  normedTag_inj (d := d) (d' := d') (h := h) (h' := h') (hn := hn) (hn' := hn') (e := e)

end
end Verif.Batch

namespace Verif.Batch
open Verif.Py Verif.IniFile Verif.JobQueue
section


/-- **C97**, the part that holds (`resolveName_finds`).  Missing: data names with underscores (`resolveName_underscore_fails`) and the
second lookup (`resolveRoot_order_fails`). -/
theorem resolveName_finds_partial {skip : List Str} {l : List Job} {j : Job} (w re : Bool) (hj : j ∈ items skip w l) (hp : Named j.info)
    (hpn : ∀ p ∈ j.info.params, p ≠ []) (hdn : j.info.data.names ≠ []) {ps ns : List Str} {t : Str}
    (hps : ps.Perm j.info.params) (hns : ns.Perm j.info.data.names) (ht : TagOf ns t) :
    ∃ k, resolveName skip l (join us ps) t j.info.base w re = .ok (some k) ∧ k.info.normedName = j.info.normedName ∧
      (items skip w l).find? (fun x => decide (x.info.normedName = j.info.normedName)) = some k :=
  resolveName_finds (skip := skip) (l := l) (j := j) (w := w) (re := re) (hj := hj) (hp := hp) (hpn := hpn) (hdn := hdn) (ps := ps) (ns := ns) (t := t) (hps := hps) (hns := hns) (ht := ht)

end
end Verif.Batch

namespace Verif.Batch
open Verif.Py Verif.IniFile Verif.JobQueue
section


/-- **C112**, the part that holds (`impInfo_named`).  Missing: parameter tags with text before the base (`impInfo_base_fails`). -/
theorem impInfo_named_partial {i : Info} (h : Named i) (hne : i.data.names ≠ []) (r : ImpRun) (hr : r.names ≠ [])
    (hg : ∀ n ∈ r.names, Good n) : Named (impInfo i r) ∧ (impInfo i r).data.names = i.data.names ++ r.names ∧
    contains c!"_post_" (impInfo i r).name = true :=
  impInfo_named (i := i) (h := h) (hne := hne) (r := r) (hr := hr) (hg := hg)

end
end Verif.Batch

namespace Verif.BestFit
open Verif.Py Verif.NumFmt
open Verif.MargeStats (splitWsN_blank splitWsN_tok Sep splitChar_not splitChar_app)
open Verif.Confidence (IsArgsort)
open Verif.Py.Np (cumsum searchsorted)
open Verif.Density (cumsum_get searchsorted_spec)
section
variable {K : Type} [Field K] [LinearOrder K] [IsStrictOrderedRing K] [FloorRing K]

/-- **C123**, the part that holds (`load_spec`).  Missing: lines without label or kind (`no_label_fails`, `no_kind_fails`). -/
theorem load_partial (wf : Bool) {head lines : List Str} {x : K} {c : Content K} (hh : Head head x) (h : Body lines c) (hfl : Flags c) :
    load wf (head ++ lines) = .ok ⟨none, x, c.chi2, c.varied ++ ((if wf then c.fixed else []) ++ c.derived)⟩ :=
  load_spec (wf := wf) (head := head) (lines := lines) (x := x) (c := c) (hh := hh) (h := h) (hfl := hfl)

end
end Verif.BestFit

namespace Verif.BestFit
open Verif.Py Verif.NumFmt
open Verif.MargeStats (splitWsN_blank splitWsN_tok Sep splitChar_not splitChar_app)
open Verif.Confidence (IsArgsort)
open Verif.Py.Np (cumsum searchsorted)
open Verif.Density (cumsum_get searchsorted_spec)
section
variable {K : Type} [Field K] [LinearOrder K] [IsStrictOrderedRing K] [FloorRing K]

/-- **C125**, the part that holds (`region_spec`).  Missing: the region may hold less than the fraction and be empty (`nd_region_fails`,
`nd_empty_fails`). -/
theorem region_partial {argsort : List K → List Nat} (hA : IsArgsort argsort) (ll weights : List K) (c : K) :
    (region argsort ll weights c).Nodup ∧ (∀ i ∈ region argsort ll weights c, i < ll.length) ∧
    (∀ i ∈ region argsort ll weights c, ∀ j < ll.length, j ∉ region argsort ll weights c → ll.getD i 0 ≤ ll.getD j 0) ∧
    (region argsort ll weights c ≠ [] → massOf weights (region argsort ll weights c) < weights.sum * c) ∧
    ((region argsort ll weights c).length < ll.length → ∃ j < ll.length, j ∉ region argsort ll weights c ∧
      (∀ k < ll.length, k ∉ region argsort ll weights c → ll.getD j 0 ≤ ll.getD k 0) ∧
      weights.sum * c ≤ massOf weights (region argsort ll weights c) + weights.getD j 0) :=
  region_spec (argsort := argsort) (hA := hA) (ll := ll) (weights := weights) (c := c)

end
end Verif.BestFit

namespace Verif.CMBlikes
open Verif.Py
section


/-- **C48**, the part that holds (`used_fields`).  Missing: with `maps_use` every required map is used as well (`required_maps_fails`). -/
theorem used_fields_partial (c : Cfg) (g : Good c) (hu : c.mapsUse = []) : ∃ m, readMaps c = .ok m ∧ m.names = mapNamesOf c ∧
    ∀ i, i < (mapNamesOf c).length → m.use.getD i false = wanted c i ∧
      m.require.getD i false = (wanted c i || decide ((mapNamesOf c).getD i [] ∈ c.required)) :=
  used_fields (c := c) (g := g) (hu := hu)

end
end Verif.CMBlikes

namespace Verif.CMBlikes
open Verif.Py
section
variable {K : Type} [Zero K]

/-- **C117**, the part that holds (`readCl_spec`).  Missing: files with one bin or repeated columns and the other parts refuted in
`Verif.Props.CMBlikes`. -/
theorem readCl_partial (hasNames : Bool) (sep : Char) (used : List Str) (nmaps : Nat) (isBinned : Bool) (binMin binMax : Int) (order top : Str)
    (data : List (Int × List K)) (hn2 : 2 ≤ data.length) (hnd : (data.map Prod.fst).Nodup) (htop : top ≠ [])
    (names : List Str) (hnames : names = splitWs (strip (if order = [] then top else c!"L " ++ order)))
    (off : Int) (hoff : off = if isBinned then 1 else 0)
    (hlast : ∀ p, data.getLast? = some p → binMax ≤ p.1 - off) :
    ∃ cl : Nat → Nat → K, readCl hasNames sep used nmaps isBinned binMin binMax order (some top) data = .ok cl ∧
      ∀ r c b L row, c ≤ r → r < nmaps → (L, row) ∈ data → L - off = binMin + (b : Nat) → L - off ≤ binMax →
        cl (tri r + c) b = if wantCol hasNames sep used names r c = -1 then 0 else row.getD (wantCol hasNames sep used names r c).toNat 0 :=
  readCl_spec (hasNames := hasNames) (sep := sep) (used := used) (nmaps := nmaps) (isBinned := isBinned) (binMin := binMin) (binMax := binMax) (order := order) (top := top) (data := data) (hn2 := hn2) (hnd := hnd) (htop := htop) (names := names) (hnames := hnames) (off := off) (hoff := hoff) (hlast := hlast)

end
end Verif.CMBlikes

namespace Verif.CamSpec
open Verif.Py Matrix
section


/-- **C166**, the part that holds (`contiguousOne_spec`).  Missing: gaps (`gaps_fails`) and the other parts refuted in
`Verif.Props.CamSpec`. -/
theorem contiguousOne_partial (l : List Nat) (h : l.Pairwise (· < ·)) (hne : l ≠ []) :
    (∃ a b, a ≤ b ∧ l = fullElls a b ∧ contiguousOne l = .ok true) ∨ contiguousOne l = .error .value :=
  contiguousOne_spec (l := l) (h := h) (hne := hne)

end
end Verif.CamSpec

namespace Verif.ChainDump
open Verif.Py
section
variable {K : Type} [Field K] [LinearOrder K] [IsStrictOrderedRing K] [FloorRing K]

/-- **C244**, the part that holds (`shade_ok`).  Missing: negative spectra (`negative_fails`, `all_negative_fails`). -/
theorem shade_ok_partial (w : Nat → K) (hw : ∀ j, 0 < w j) (n : Nat) (ps cs : Nat → K) (h : ∀ k, 0 ≤ cs k) (m : Nat) (hm : m < n) (hp : 0 < cs m) : ∃ f, shade w n ps cs = .ok f :=
  shade_ok (w := w) (hw := hw) (n := n) (ps := ps) (cs := cs) (h := h) (m := m) (hm := hm) (hp := hp)

end
end Verif.ChainDump

namespace Verif.ChainDump
open Verif.Py
section
variable {R : Type} [Field R] [DecidableEq R]

/-- **C246**, the part that holds (`camb_ok_iff`).  Missing: parameters that are ignored (`ignored_fails`) or not sampled as assumed
(`sampled_fails`). -/
theorem camb_ok_partial (p : Dict Str R) : (∃ c, cambParams p = .ok c) ↔ Supported p ∧ ∀ n ∈ basic, (p.get? n).isSome :=
  camb_ok_iff (p := p)

end
end Verif.ChainDump

namespace Verif.ChainFiles
open Verif.Py Verif.Py.Path
section


/-- **C88**, the part that holds (`numbered_unique`).  Missing: files without number (`plain_file_two_roots_fails`) and roots without or
with leading directories. -/
theorem numbered_unique_partial {b1 b2 sep ext d1 d2 : Str} {s : Str} {c : Char} (hs : sep = s ++ [c]) (hc : Re.digit c = false)
    (h1 : Digits d1) (h2 : Digits d2) (h : b1 ++ sep ++ d1 ++ ext = b2 ++ sep ++ d2 ++ ext) : b1 = b2 ∧ d1 = d2 :=
  numbered_unique (b1 := b1) (b2 := b2) (sep := sep) (ext := ext) (d1 := d1) (d2 := d2) (s := s) (c := c) (hs := hs) (hc := hc) (h1 := h1) (h2 := h2) (h := h)

end
end Verif.ChainFiles

namespace Verif.ChainFiles
open Verif.Py Verif.Py.Path
section


/-- **C108**, the part that holds (`save_found`).  Missing: roots ending in `.txt` (`save_txt_root_fails`). -/
theorem save_found_partial {dir base : Str} {i : Option Nat} (hd : Plain dir) (hb : '/' ∉ base) (hne : base ≠ [])
    (ht : endsWith c!".txt" (dir ++ '/' :: base) = false) :
    ∃ f, saveName (dir ++ '/' :: base) i = Path.join (dirname (dir ++ '/' :: base)) f ∧
      accepts (dir ++ '/' :: base) {} f = true ∧
      IsChain base c!"_" c!".txt" (match i with | none => 0 | some i => i + 1) f :=
  save_found (dir := dir) (base := base) (i := i) (hd := hd) (hb := hb) (hne := hne) (ht := ht)

end
end Verif.ChainFiles

namespace Verif.Cobaya
open Verif.Py
section
variable {K : Type} [Field K] [LinearOrder K] [IsStrictOrderedRing K] [FloorRing K]

/-- **C149**, the part that holds (`names_nodup`).  Missing: the forms of information refuted in `Verif.Props.Cobaya`. -/
theorem names_nodup_partial (i : Info K) (d : Dict Str (PInfo K)) (l : List ParamNames.Info) (hd : infoParams i = .ok d)
    (h : loadNames i = .ok l) (hb : ∀ e ∈ d, ¬ (isSampled e.2 = true ∧ isDerived e.2 = true)) : (l.map (·.name)).Nodup :=
  names_nodup (i := i) (d := d) (l := l) (hd := hd) (h := h) (hb := hb)

end
end Verif.Cobaya

namespace Verif.Cobaya
open Verif.Py
section
variable {K : Type} [Field K] [LinearOrder K] [IsStrictOrderedRing K] [FloorRing K]

/-- **C151**, the part that holds (`props_win`).  Missing: chains whose properties do not say that burn-in was removed (`skip_twice_fails`,
`nested_burn_fails`). -/
theorem props_win_partial (kw set ini : Option K) (r : Option K) (removed : Bool) (s : Option Str) (info : Option (Info K))
    (b : Chains.Burn K) (t : Str) (h : construct kw none set ini (some (r, removed, s)) info = .ok (b, t)) :
    (removed = true → Keeps b) ∧ (removed = false → ∀ x, r = some x → b = Chains.setBurnOptions x) ∧
    (∀ x, s = some x → setSampler x = .ok t) :=
  props_win (kw := kw) (set := set) (ini := ini) (r := r) (removed := removed) (s := s) (info := info) (b := b) (t := t) (h := h)

end
end Verif.Cobaya

namespace Verif.Cobaya
open Verif.Py
section
variable {K : Type}
variable [Field K] [LinearOrder K] [IsStrictOrderedRing K] [FloorRing K]
variable {interval : Str → Option K → Option K → Option (Ext K × Ext K)} {parse : Str → Option K} {pick : List Str → Str}
variable {colls : List (Coll K)} {i : Info K} {ignore : K} {set ini : Option K} {out : Out K}

/-- **C191**, the part that holds (`memory_as_files`).  Missing: infos that are refused (`null_fails`, `function_fails`) and aliases in
common (`common_alias_fails`). -/
theorem memory_as_files_partial (h : fromCobaya interval parse pick colls i ignore set ini = .ok out) (b : Bounds.ParamBounds K) (hb : loadBounds interval parse i = .ok b)
    (d : Dict Str (PInfo K)) (hd : infoParams i = .ok d) (k : Str) (hk : ∀ p, d.get? k = some p → withRange p = true) :
    Bounds.getLower out.bounds k = Bounds.getLower b k ∧ Bounds.getUpper out.bounds k = Bounds.getUpper b k :=
  memory_as_files (h := h) (b := b) (hb := hb) (d := d) (hd := hd) (k := k) (hk := hk)

end
end Verif.Cobaya

namespace Verif.Combine
open Verif.Py Verif.Samples Verif.Chains
section
variable {K : Type}

/-- **C105**, the part that holds (`setParams_spec`).  Missing: combining samples with dotted names (`dotted_fails`) and names ending in
`.value` (`value_name_fails`). -/
theorem setParams_partial {cols : List (Str × List K)} (h : Clean cols) :
    (∀ p ∈ cols, ¬ IsNode cols (pathOf p.1) → Dict.get? (setParams cols) (pathOf p.1) = some (.arr p.2)) ∧
    (∀ p ∈ cols, IsNode cols (pathOf p.1) → Dict.get? (setParams cols) (pathOf p.1 ++ [valueAttr]) = some (.arr p.2)) ∧
    (∀ q, Dict.get? (setParams cols) q = some .node ↔ IsNode cols q) ∧
    (∀ q v, Dict.get? (setParams cols) q = some (.arr v) → ∃ p ∈ cols, p.2 = v ∧ (q = pathOf p.1 ∨ q = pathOf p.1 ++ [valueAttr])) :=
  setParams_spec (cols := cols) (h := h)

end
end Verif.Combine

namespace Verif.CommandLine
open Verif.Py Verif.ParamNames
section
variable {isFile : Str → Bool} {glob : Str → List Str} {dflt : Str}

/-- **C145**, the part that holds (`wildcard_spec`).  Missing: the roots of `ini_substring_fails`, `no_ini_fails` and the plots of
`wildcard_plots_fails`. -/
theorem wildcard_partial {f r : Str} (n : Nat) (roots : List Str) (hf : isFile f = true) (ht : ¬ c!".txt" <:+ r)
    (hw : '*' ∈ r ∨ '?' ∈ r)
    (hg : glob (r ++ c!".paramnames") = roots.map (· ++ c!".paramnames"))
    (hy : glob (r ++ c!"updated.yaml") = [])
    (hr : ∀ x ∈ roots, contains c!".paramnames" x = false ∧ '*' ∉ x ∧ '?' ∉ x ∧ ¬ c!".txt" <:+ x) :
    runs isFile glob dflt (n + 2) ⟨some f, some r⟩ = some (roots.map fun x => (f, some x, false)) :=
  wildcard_spec (f := f) (r := r) (n := n) (roots := roots) (hf := hf) (ht := ht) (hw := hw) (hg := hg) (hy := hy) (hr := hr)

end
end Verif.CommandLine

namespace Verif.CommandLine
open Verif.Py Verif.ParamNames
section


/-- **C147**, the part that holds (`custom_mem`).  Missing: repetitions (`twice_fails`), missing names (`missing_silent_fails`) and the
order (`order_fails`). -/
theorem custom_mem_partial {names : List Str} {cust : List (Str × Str)} (hne : cust ≠ []) (hn : ∀ a ∈ names, Clear a)
    (hc : ∀ q ∈ cust, Clear q.1) (q : Str × Str) :
    q ∈ plots2D names none cust ↔ q.1 ∈ names ∧ q.2 ∈ names ∧ q ∈ cust :=
  custom_mem (names := names) (cust := cust) (hne := hne) (hn := hn) (hc := hc) (q := q)

end
end Verif.CommandLine

namespace Verif.Converge
open Verif.Py Verif.Py.Np
open Verif.Convolve (AutoOk)
open Verif.AutoCorr (specMean specVar pairMean at' lengthOf autocorr_spec corrLength)
section
variable {K : Type} [Field K] [LinearOrder K] [IsStrictOrderedRing K]
variable {pack : List K → Nat → List K} {idct1 : List K → List K}

/-- **C138**, the part that holds (`corrLine_ok`).  Missing: chains that do not move or are stuck (`stuck_chains_fails`, `constant_fails`).
-/
theorem corrLine_ok_partial (ho : AutoOk pack idct1) (cs : List (Col K)) (hne : cs ≠ []) (hu : ∀ c ∈ cs, Usable c) :
    (∃ r, corrLine pack idct1 cs = .ok r) ↔ specVar (join cs).w (join cs).x ≠ 0 ∧ corrN pack idct1 cs ≠ .ok 0 :=
  corrLine_ok (ho := ho) (cs := cs) (hne := hne) (hu := hu)

end
end Verif.Converge

namespace Verif.Converge

section
variable {K : Type} [Field K] [LinearOrder K] [IsStrictOrderedRing K]

/-- **C141**, the part that holds (`corrSteps_spec`).  Missing: the number of steps asked for, which is counted twice (`steps_twice_fails`).
-/
theorem corrSteps_partial (var : K) (thin steps total : Nat) (ds : List (List K)) :
    (corrSteps var thin steps total ds) = (List.range (lastStep thin ds (min steps (total / (2 * ds.length))))).map
      (fun k => (ds.map (fun d => lagMean var d (k + 1))).sum / ds.length) ∧
    ∀ n, n ≤ (corrSteps var thin steps total ds).length ↔ n ≤ steps ∧ n ≤ total / (2 * ds.length) ∧ ∀ d ∈ ds, n ≤ d.length / thin :=
  corrSteps_spec (var := var) (thin := thin) (steps := steps) (total := total) (ds := ds)

end
end Verif.Converge
