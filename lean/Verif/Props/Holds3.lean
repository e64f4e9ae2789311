import Verif.Props.Bounds
import Verif.Props.PCA
import Verif.Props.PlikCoadd
import Verif.Props.PlikPost
import Verif.Props.PlotCalls
import Verif.Props.RafteryLoop
import Verif.Props.ReadChains
import Verif.Props.SNCov
import Verif.Props.Singles
import Verif.Props.SinglesSplit
import Verif.Props.StatCache
import Verif.Props.SubmitJob
import Verif.Props.TicksAll

set_option linter.unusedSectionVars false
set_option linter.unusedVariables false

/-!
# What holds of properties that fail as a whole

Each theorem is the part that holds of a property refuted elsewhere; the docstring names the theorem it follows from, beside which there are
examples, and says what is missing.
-/

namespace Verif.PCA
open Verif.Py Matrix
section
variable {p q : Nat}
variable {eig : Eig p} {argsort : (Fin p → ℝ) → Fin p → Fin p} {argmax : (Fin p → ℝ) → Fin p}

/-- **C143**, the part that holds (`comps_spec`).  Missing: the parts refuted in `Verif.Props.PCA` (missing parameters, default map, equal
eigenvalues). -/
theorem comps_partial (he : EigSpec eig) (ha : ArgsortSpec argsort) (rows : Rows (Ix p 0)) (hw : Weighted rows) (hs : ∀ i, sd rows i ≠ 0) (nm : Option (Fin p)) :
    ∃ R, report eig argsort argmax nm rows = .ok R ∧ (∀ i, avg rows (fun x => lin R.u rows x i) = 0) ∧
      (∀ i j, R.evals i ≠ R.evals j → avg rows (fun x => lin R.u rows x i * lin R.u rows x j) = 0) ∧
      ∀ i, avg rows (fun x => lin R.u rows x i ^ 2) = R.evals i * ∑ j, R.u i j ^ 2 :=
  comps_spec (he := he) (ha := ha) (rows := rows) (hw := hw) (hs := hs) (nm := nm)

end
end Verif.PCA

namespace Verif.Plik
open Verif.Py Matrix
section
variable {F : Type} [Field F] [DecidableEq F]

/-- **C163**, the part that holds (`goodRows_first`).  Missing: the first block (`firstBlock_fails`), wide bins (`wideBins_fails`) and
python 3 (`setup_fails`). -/
theorem goodRows_first_partial {N n : Nat} (J : Matrix (Fin N) (Fin n) F) (m : Nat) (hm : m ≤ N) (h : ∀ i : Fin N, i.val < m → (∑ k, J i k) ≠ 0) (k : Nat) (hk : k < m) :
    ((goodRows J)[k]?).map Fin.val = some k :=
  goodRows_first (N := N) (n := n) (J := J) (m := m) (hm := hm) (h := h) (k := k) (hk := hk)

end
end Verif.Plik

namespace Verif.PlikPost
open Verif.Py
section
variable {F : Type}

/-- **C169**, the part that holds (`newNames_spec`).  Missing: the files refuted in `Verif.Props.PlikPost` (no chi squared, blank lines, one
row). -/
theorem newNames_partial {a : List Str} {c : Str} {b : List Str} (ha : ∀ l ∈ a, isChi2 l = false) (hc : isChi2 c = true) :
    ∃ ns, newNames (a ++ c :: b) = .ok ns ∧ paraNames ns = paraNames a ++ newPars ++ paraNames (c :: b) :=
  newNames_spec (a := a) (c := c) (b := b) (ha := ha) (hc := hc)

end
end Verif.PlikPost

namespace Verif.PlotCalls
open Verif.Py Verif.PlotLayout
section
variable {K : Type} [LinearOrder K]

/-- **C230**, the part that holds (`plot2_range`).  Missing: priors of other roots (`first_prior_fails`) and limits that are none
(`lims_none_fails`). -/
theorem plot2_range_partial (first : Root2 K) (rs : List (Root2 K)) (labels : List Str) (a : AxArgs K) (ax : Ax K) (h : ∃ r ∈ first :: rs, r.bounds ≠ none) :
    ∃ ax' x y rx ry, plot2 (first :: rs) labels .missing a ax = .ok (ax', some (x, y)) ∧ IsHull (boundsX (first :: rs)) x ∧ IsHull (boundsY (first :: rs)) y ∧
      ax'.lims = some [rx.1, rx.2, ry.1, ry.2] ∧ (∀ v, Within rx v ↔ Within first.priorX v ∧ x.1 ≤ v ∧ v ≤ x.2) ∧ (∀ v, Within ry v ↔ Within first.priorY v ∧ y.1 ≤ v ∧ v ≤ y.2) :=
  plot2_range (first := first) (rs := rs) (labels := labels) (a := a) (ax := ax) (h := h)

end
end Verif.PlotCalls

namespace Verif.Raftery
open Verif.Py Verif.Py.Np Verif.Thin
section


/-- **C136**, the part that holds (`chain_spec`).  Missing: chains for which there is no line at all (`ideal_chain_fails`,
`alternating_fails`). -/
theorem chain_partial (argsort : List ℝ → List Nat) (all c : Chain) (conf : ℝ) (nMC : Nat) (s s' : St) (ws : List Nat) (hc : Natural c ws)
    (m f : Nat) (nb : Int) (h : chain argsort all conf nMC s c = .ok (some (some (m, f, nb), s'))) :
    ∃ f0 ∈ ws, Covers ws f0 ∧ f0 ≤ m ∧ m ≤ f ∧
    (∀ j < nMC, ∀ e < 2, ∃ g n, f0 ≤ g ∧ g ≤ m ∧ n ≤ nb ∧ Need argsort all.weights c conf j e g n) ∧
    (0 < nMC → ∃ j < nMC, ∃ e < 2, ∃ g, f0 ≤ g ∧ g ≤ m ∧ Need argsort all.weights c conf j e g nb ∧
      ∃ y x u, all.cols[j]? = some y ∧ c.cols[j]? = some x ∧
        Confidence.confidence argsort all.weights y ((1 - conf) / 2) (e == 0) 0 none none = .ok u ∧
        IndepOK c.weights x u f ∧ ∀ f', m ≤ f' → f' < f → ¬ IndepOK c.weights x u f') :=
  chain_spec (argsort := argsort) (all := all) (c := c) (conf := conf) (nMC := nMC) (s := s) (s' := s') (ws := ws) (hc := hc) (m := m) (f := f) (nb := nb) (h := h)

end
end Verif.Raftery

namespace Verif.Chains
open Verif.Py Verif.Py.Np Verif.Thin Verif.Samples
section
variable {K : Type} [Field K] [LinearOrder K] [FloorRing K]

/-- **C110**, the part that holds (`loadFile_plain`).  Missing: `loadChains` itself, which does not pass the option on
(`samples_are_chains_fails`); the reader below it is right. -/
theorem loadFile_plain_partial {a : Arr2 K} {s : WS K} {skip : Nat} {ratio : Option K} (h : loadFile skip false ratio a = .ok s) :
    s.samples = some ⟨a.n, a.rows.drop skip⟩ :=
  loadFile_plain (a := a) (s := s) (skip := skip) (ratio := ratio) (h := h)

end
end Verif.Chains

namespace Verif.SN
open Verif.Py Matrix Real MeasureTheory
section
variable {n : Nat}

/-- **C158**, the part that holds (`calls_ok`).  Missing: an inverse that fails or is kept for other values (`failedInverse_fails`,
`cachedInverse_fails`) and the files refuted in `Verif.Props.SN`. -/
theorem calls_ok_partial (d : Data n) (c : Covs n) (ps : List (ℝ × ℝ)) (h : AllOk d c ⟨none, none⟩ ps) (a b : ℝ) (m : Matrix (Fin n) (Fin n) ℝ)
    (hm : (invCov d c (calls d c ⟨none, none⟩ ps) a b).1 = .ok m) : ∃ a' b', isClose a a' ∧ isClose b b' ∧ m * covMat d c a' b' = 1 :=
  calls_ok (d := d) (c := c) (ps := ps) (h := h) (a := a) (b := b) (m := m) (hm := hm)

end
end Verif.SN

namespace Verif.Singles
open Verif.Py Verif.Py.Np Verif.Confidence
section
variable {K : Type} [Field K] [LinearOrder K] [IsStrictOrderedRing K]

/-- **C129**, the part that holds (`random_spec`).  Missing: numbers drawn that are zero (`zero_weight_fails`) and factors below one
(`factor_below_one_fails`). -/
theorem random_partial {rand w : List K} (hl : rand.length = w.length) {m : K} (hm : Greatest w m) {thin ms : Option K} {t : K} (h : Factor w m thin ms t) :
    ∃ ix, randomSingle rand w thin ms = .ok ix ∧ ix.Pairwise (· < ·) ∧ (∀ i ∈ ix, i < w.length) ∧
      ∀ i, (hi : i < w.length) → (i ∈ ix ↔ rand[i] ≤ w[i] / (m * t)) :=
  random_spec (rand := rand) (w := w) (hl := hl) (m := m) (hm := hm) (thin := thin) (ms := ms) (t := t) (h := h)

end
end Verif.Singles

namespace Verif.Singles
open Verif.Py Verif.Py.Np Verif.Confidence
section
variable {K : Type} [Field K] [LinearOrder K] [IsStrictOrderedRing K]

/-- **C131**, the part that holds (`part_weight`).  Missing: other weights than those of the samples (`other_weights_fails`) and rows
heavier than a part (`split_heavy_fails`). -/
theorem part_weight_partial {w : List K} (hw : ∀ x ∈ w, 0 ≤ x) {m : K} (hm : Greatest w m) {n k : Nat} (h : k < n) :
    |(part w w n k).sum - w.sum / n| ≤ m :=
  part_weight (w := w) (hw := hw) (m := m) (hm := hm) (n := n) (k := k) (h := h)

end
end Verif.Singles

namespace Verif.Singles
open Verif.Py Verif.Py.Np Verif.Confidence
section
variable {K : Type} [Field K] [LinearOrder K] [IsStrictOrderedRing K]

/-- **C133**, the part that holds (`pairs_ranked`).  Missing: ties (`pairs_tie_fails`) and correlations not yet computed
(`pairs_unset_fails`). -/
theorem pairs_ranked_partial (c : Nat → Nat → K) (hc : ∀ i j, |c i j| ≤ 1) (nd : Nat) (m : Nat) (nparam : Option Nat) :
    ∃ l, correlatedPairs (some c) nd m nparam = .ok l ∧ Ranking c (if nparam.getD 0 = 0 then nd else nparam.getD 0) m 2 l :=
  pairs_ranked (c := c) (hc := hc) (nd := nd) (m := m) (nparam := nparam)

end
end Verif.Singles

namespace Verif.StatCache
open Verif.Py
section
variable {D G M C L P X : Type}
variable (lib : Lib D G M C L P X) (d : D) (r : Ranges) (g : G) (names : List (Str × Bool)) (ops : List (Op D G))

/-- **C207**, the part that holds (`update_fresh`).  Missing: limits asked for before the statistics are updated (`marge_stale_fails`,
`like_stale_fails`). -/
theorem update_fresh_partial : let s := run lib (load lib d r g names) (ops ++ [.updateBase])
    (margeStats lib s).2 = wantMarge lib s ∧ (likeStats lib s).2 = lib.like s.data s.cfg ∧
    getCovMat lib s = .ok ((list s).take (numSampled s), lib.sub (numSampled s) (lib.cov s.data)) :=
  update_fresh lib d r g names ops

end
end Verif.StatCache

namespace Verif.SubmitJob
open Verif.Py Verif.JobQueue
section
variable (qsub : Str → Str → Option Str) (s : Settings) (cwd : Str) (w : World)

/-- **C213**, the part that holds (`sge_id`).  Missing: other answers of the queue (`no_answer_fails`, `error_first_fails`). -/
theorem sge_id_partial (d t : Str) (hd : ∀ c ∈ d, c.isDigit = true) : jobId (strip (bytesStr (c!"Your job " ++ d ++ ' ' :: t))) = some d :=
  sge_id (d := d) (t := t) (hd := hd)

end
end Verif.SubmitJob

namespace Verif.Ticks
open Verif.Py
section
variable {K : Type} [Field K] [LinearOrder K] [IsStrictOrderedRing K] [FloorRing K]

/-- **C156**, the part that holds (`tickValues_spec`).  Missing: shifted ticks (`shift_fails`) and the last resort (`last_resort_fails`). -/
theorem tickValues_partial (l : Loc K) (rounds : Nat) (vmin vmax : K) (h0 : 0 < l.sizeRatio) (hr : vmin < vmax) (hk : 4 ≤ rounds)
   
    (hs : 0 < (l.scaleRange vmin vmax 1).1) (hs' : (l.scaleRange vmin vmax 1).1 ≤ vmax - vmin) :
    ∃ t, tickValues l rounds vmin vmax = some t ∧ Spec l (vmin, vmax) t :=
  tickValues_spec (l := l) (rounds := rounds) (vmin := vmin) (vmax := vmax) (h0 := h0) (hr := hr) (hk := hk) (hs := hs) (hs' := hs')

end
end Verif.Ticks

namespace Verif.Bounds
open Verif.Py
variable {K : Type} [Field K] [LinearOrder K] [IsStrictOrderedRing K] [FloorRing K]

/-- **C90**, the part that holds: a range of a parameter named by one word whose limits differ in their first eight figures is a range again
after writing and reading.  Missing: limits that are closer (`narrow_range_fails`), names with blanks (`blank_name_fails`), removing a
limit (`unset_fails`). -/
theorem stays_range_partial {b b' : ParamBounds K} (hi : Inv b) (ht : ∀ n ∈ b.names, Token n)
    (hfit : ∀ n x, getLower b n = some x ∨ getUpper b n = some x → Fits x) (h : ofText (toText b) = .ok b') (n : Str) (l u : K)
    (hl : getLower b n = some l) (hu : getUpper b n = some u) (hd : roundSig 7 l ≠ roundSig 7 u) :
    fixedValue b' n = none ∧ getLower b' n = some (roundSig 7 l) ∧ getUpper b' n = some (roundSig 7 u) := by
  obtain ⟨b2, h1, _, h3, h4⟩ := save_load hi ht hfit
  rw [h] at h1
  cases h1
  have e3 : getLower b' n = some (roundSig 7 l) := by rw [h3, hl]; rfl
  have e4 : getUpper b' n = some (roundSig 7 u) := by rw [h4, hu]; rfl
  refine ⟨?_, e3, e4⟩
  cases hf : fixedValue b' n with
  | none => rfl
  | some v =>
    obtain ⟨g1, g2⟩ := (fixedValue_iff b' n v).mp hf
    rw [e3] at g1
    rw [e4] at g2
    injection g1 with g1
    injection g2 with g2
    exact absurd (g1.trans g2.symm) hd

example : ((ofText (toText exB) : Except BErr (ParamBounds ℚ)).toOption.map (fun b => (fixedValue b c!"ns", getLower b c!"ns", getUpper b c!"ns"))) =
    some (none, some (4 / 5), some (6 / 5)) := by decide +kernel

end Verif.Bounds
