import Verif.Model.Batch

/-!
# Model of the supplied grids (`python/planck/settings_planck_2018.py`, `settings_planck_2015.py`, `settings_planck_nominal.py`,
`python/settings_sample_camspec.py`)

The groups of runs, the filters of the importance runs, the ranges of the parameters.  Left out: the settings for the search of covariance
matrices, `dist_settings`, groups under `if False`.  Values of options are texts; the sums `3.046 + 0.39` are written as decimals.
`zre_importance.filter` is in `SaveChains.lean`.
-/

namespace Verif.PlanckGrids
open Verif.Py Verif.Batch

/-- `d.add(name)` -/
def plus (n : Str) (d : DS) : DS := d.add (some n) none true
/-- `d.add(name, file)` -/
def plusF (n f : Str) (d : DS) : DS := d.add (some n) (some [.file f]) true
/-- `d.add(name, {..})` -/
def plusD (n : Str) (o : Dict Str Str) (d : DS) : DS := d.add (some n) (some [.dict o]) true

/-! ## The filters of importance runs -/

/-- `planck_vars` (settings_planck_2018.py:74, settings_planck_2015.py:86) -/
def planckVars : List Str := [c!"plikHM", c!"CamSpecHM"]

/-- `[planck for planck in planck_vars if planck in jobItem.data_set.names]` is not empty -/
def isPlanck (i : Info) : Bool := planckVars.any (fun p => i.data.names.contains p)

/-- `importanceFilterLensing.wantImportance` (settings_planck_2018.py:100-103, settings_planck_2015.py:114-117) -/
def wantLensing (i : Info) : Bool := isPlanck i && (!i.params.contains c!"omegak" || i.params.length == 1)
/-- `importanceFilterSN.wantImportance` (settings_planck_2018.py:106-108) -/
def wantSN (i : Info) : Bool := !i.data.names.contains c!"JLA" && !i.data.names.contains c!"Pantheon18"
/-- `reion_importance.wantImportance`, `zre_importance.wantImportance` (settings_planck_2018.py:111-120, settings_planck_2015.py:120-123) -/
def wantZre (i : Info) : Bool := isPlanck i && !i.data.names.contains c!"reion"
/-- `importanceFilterNotOmegak.wantImportance` (settings_planck_2018.py:130-132, settings_planck_2015.py:126-128) -/
def wantFlat (i : Info) : Bool := !i.params.contains c!"omegak"
/-- `importanceFilterBAO.wantImportance` (settings_planck_2018.py:135-137, settings_planck_2015.py:131-133) -/
def wantBAO (i : Info) : Bool := !i.params.contains c!"omegak" && i.data.hasName [c!"BAO"]
/-- `importanceFilterNnu.wantImportance` (settings_planck_2018.py:140-142), `importanceFilterHighH0` (settings_planck_2015.py:136-138) -/
def wantNnu (i : Info) : Bool := i.params.contains c!"nnu"
/-- `importanceFilterLensing` of settings_planck_nominal.py:49-51 -/
def wantLensing13 (i : Info) : Bool := i.data.names.contains c!"planck" && (!i.params.contains c!"omegak" || i.params.length == 1)
/-- `importanceFilterNotOmegakLowl` (settings_planck_nominal.py:54-56) -/
def wantNotLowl13 (i : Info) : Bool := !(i.params.contains c!"omegak" && decide (i.datatag = c!"planck_lowl"))
/-- no filter is given -/
def always (_ : Info) : Bool := true

/-- an importance run with files only -/
def run (names files : List Str) (want : Info → Bool) : ImpRun := ⟨names, files.map .file, want⟩

/-! ## Data sets of 2018 (settings_planck_2018.py:70-90) -/

/-- the four sets of one likelihood -/
def setsOf (planck : Str) (base : List Str) (pre post : Str) (vars : List Str) : List DS :=
  vars.map (fun v => mkData [planck, v] (some ((base ++ [pre ++ v ++ post]).map .file)))

def tags : List Str := [c!"TT", c!"TTTEEE"]
def polTags : List Str := [c!"TE", c!"EE"]

/-- `planck_highL_sets` -/
def highL18 : List DS := setsOf c!"plikHM" [] c!"plik_rd12_HM_v22_" c!".ini" tags ++ setsOf c!"CamSpecHM" [] c!"nonclik_v10_7_" c!".ini" tags
/-- `planck_pol_sets` -/
def pol18 : List DS := setsOf c!"plikHM" [] c!"plik_rd12_HM_v22_" c!".ini" polTags ++ setsOf c!"CamSpecHM" [] c!"nonclik_v10_7_" c!".ini" polTags
/-- `baseTTTEEE` -/
def baseTTTEEE : DS := mkData [c!"plikHM", c!"TTTEEE"] (some [.file c!"plik_rd12_HM_v22_TTTEEE.ini"])

def lowE (d : DS) : DS := plusF c!"lowE" c!"simall_EE.ini" d
def lowl (d : DS) : DS := plus c!"lowl" d
def lensing (d : DS) : DS := plus c!"lensing" d
def bao (d : DS) : DS := plusF c!"BAO" c!"BAO.ini" d
def hst (d : DS) : DS := plusF c!"Riess18" c!"HST_Riess2018.ini" d
def cooke (d : DS) : DS := plusF c!"CookeDH" c!"baryon_density.ini" d
def theta (d : DS) : DS := plusD c!"theta" [(c!"prior[theta]", c!"1.0409 0.0006")] d
def pantheon (d : DS) : DS := plus c!"Pantheon18" d

/-! ## Importance runs of 2018 (settings_planck_2018.py:145-168) -/

def postLensing : ImpRun := run [c!"lensing"] [c!"lensing.ini"] wantLensing
def postLensingBAO : ImpRun := run [c!"BAO", c!"lensing"] [c!"BAO.ini", c!"lensing.ini"] wantFlat
def postLensingPantheon : ImpRun := run [c!"lensing", c!"Pantheon18"] [c!"lensing.ini", c!"Pantheon18.ini"] wantSN
def postLensingJLA : ImpRun := run [c!"lensing", c!"JLA"] [c!"lensing.ini", c!"JLA_marge.ini"] wantFlat
def postBAO : ImpRun := run [c!"BAO"] [c!"BAO.ini"] wantFlat
def postHST : ImpRun := run [c!"Riess18"] [c!"HST_Riess2018.ini"] wantFlat
def postBAOPantheon : ImpRun := run [c!"BAO", c!"Pantheon18"] [c!"BAO.ini", c!"Pantheon18.ini"] wantFlat
def postBAOHST : ImpRun := run [c!"BAO", c!"Riess18"] [c!"BAO.ini", c!"HST_Riess2018.ini"] wantFlat
def postBAOHSTJLA : ImpRun := run [c!"BAO", c!"JLA", c!"Riess18"] [c!"BAO.ini", c!"JLA_marge.ini", c!"HST_Riess2018.ini"] wantFlat
def postBAOHSTPantheon : ImpRun := run [c!"BAO", c!"Pantheon18", c!"Riess18"] [c!"BAO.ini", c!"Pantheon18.ini", c!"HST_Riess2018.ini"] wantFlat
def postBAOlensingPantheon : ImpRun := run [c!"BAO", c!"lensing", c!"Pantheon18"] [c!"BAO.ini", c!"lensing.ini", c!"Pantheon18.ini"] wantFlat
def postPantheon : ImpRun := run [c!"Pantheon18"] [c!"Pantheon18.ini"] wantFlat
def postAver15 : ImpRun := run [c!"Aver15"] [c!"Aver15BBN.ini"] wantNnu
def postBBN : ImpRun := run [c!"Cooke17", c!"Aver15"] [c!"Aver15BBN.ini", c!"Cooke17BBN.ini"] wantNnu

/-! ## Variants of the lensing data (settings_planck_2018.py:367-408) -/

/-- `varnames`, the tag of the data and the options -/
def lensVars : List (Str × Str × Dict Str Str) :=
  let redo (o : Dict Str Str) : Dict Str Str := [(c!"redo_theory", c!"True"), (c!"redo_cls", c!"True")] ++ o
  [(c!"agr2", c!"dclpp_p_teb_agr2_CMBmarged", []),
   (c!"conslmin40", c!"dclpp_p_teb_consext8_CMBmarged", [(c!"cmb_dataset[lensing,use_min]", c!"2")]),
   (c!"agrlmax425", c!"dclpp_p_teb_agr2_CMBmarged", [(c!"cmb_dataset[lensing,use_max]", c!"9")]),
   (c!"ptt", c!"dclpttptt_p_teb_consext8_CMBmarged", []),
   (c!"pttagr2", c!"dclpttptt_p_teb_agr2_CMBmarged", []),
   (c!"bfcl", c!"dclpp_p_teb_consext8_lensonly", []),
   (c!"agr2bfcl", c!"dclpp_p_teb_agr2_lensonly", []),
   (c!"linear", c!"dclpp_p_teb_consext8_CMBmarged", redo [(c!"use_nonlinear_lensing", c!"False")]),
   (c!"acc", c!"dclpp_p_teb_consext8_CMBmarged", redo [(c!"accuracy_level", c!"1.5"), (c!"k_eta_max_scalar", c!"50000")]),
   (c!"agr2acc", c!"dclpp_p_teb_agr2_CMBmarged", redo [(c!"accuracy_level", c!"1.5"), (c!"k_eta_max_scalar", c!"50000")]),
   (c!"takahashi", c!"dclpp_p_teb_consext8_CMBmarged", redo [(c!"halofit_version", c!"4")]),
   (c!"agr2takahashi", c!"dclpp_p_teb_agr2_CMBmarged", redo [(c!"halofit_version", c!"4")]),
   (c!"Apr6", c!"smicadx12_Apr6_ndclpp_p_teb_consext8_CMBmarged", [])]

/-- the data file of a tag -/
def lensFile (tag : Str) : Str :=
  c!"%DATASETDIR%planck_lensing_2017/" ++ (if contains c!"smica" tag then [] else c!"smicadx12_Dec5_ftl_mv2_n") ++ tag ++ c!".dataset"

def fixKey : Str := c!"cmb_dataset[lensing,linear_correction_bin_window_fix_cl]"

/-- the options of a variant (settings_planck_2018.py:398-406) -/
def lensOpts (name tag : Str) (opt : Dict Str Str) : Dict Str Str :=
  let dic := Dict.update [(c!"redo_likelihood", c!"True"), (c!"redo_add", c!"False"), (c!"cmb_dataset[lensing]", lensFile tag)] opt
  if contains c!"ptt" name && !contains c!"CMBmarged" name then dic.set fixKey c!"TT" else dic

def lensRuns : List ImpRun := lensVars.map (fun v => ⟨[v.1], [.dict (lensOpts v.1 v.2.1 v.2.2)], always⟩)

/-! ## Groups of 2018 (settings_planck_2018.py:172-613) -/

def main18 : List DS := highL18.map (fun d => lowE (lowl d))

def group (name : Str) (params : List (List Str)) (runs : List ImpRun) (data : List DS) : Group := ⟨params, some name, runs, data⟩

def lensData : DS := mkData [c!"lensing", c!"lenspriors"] (some [.file c!"lensonly", .file c!"lensonly_priors", .dict [(c!"MPI_Converge_Stop", c!"0.002")]])
def lensTT : DS := mkData [c!"lensing", c!"lenspriors", c!"pttagr2"] (some [.file c!"lensonly", .file c!"lensonly_priors",
  .dict [(c!"cmb_dataset[lensing]", lensFile c!"dclpttptt_p_teb_agr2_CMBmarged")]])
def lensAstro : DS := mkData [c!"lensing", c!"DESpriors"] (some [.file c!"lensonly", .file c!"DES_astro_priors"])
def lensPlus (d : DS) : DS := plusF c!"lensing" c!"lensonly" d

def des : List DS := [mkData [c!"DES", c!"lenspriors"] (some [.file c!"DES", .file c!"lensonly_priors"]),
  mkData [c!"DESlens", c!"lenspriors"] (some [.file c!"DES_lensing", .file c!"lensonly_priors"])]
def desAstro : List DS := [mkData [c!"DES", c!"DESpriors"] (some [.file c!"DES", .file c!"DES_astro_priors"]),
  mkData [c!"DESlens", c!"DESpriors"] (some [.file c!"DES_lensing", .file c!"DES_astro_priors"]),
  mkData [c!"DESwt", c!"DESpriors"] (some [.file c!"DES_wt", .file c!"DES_astro_priors"])]

def lensBBN : DS := mkData [c!"lensing", c!"lenspriors", c!"BAO", c!"Cooke17", c!"Aver15"]
  (some [.file c!"lensonly", .file c!"Aver15BBN", .file c!"Cooke17BBN", .file c!"BAO.ini", .file c!"lensonly_priors", .dict [(c!"prior[omegabh2]", [])]])

def noCMB : Dict Str Str := [(c!"lmin_store_all_cmb", c!"0"), (c!"lmin_computed_cl", c!"0"), (c!"param[ns]", c!"0.96"), (c!"param[logA]", c!"3"),
  (c!"param[tau]", c!"0.055"), (c!"get_sigma8", c!"False")]

def bbn : DS := mkData [c!"BAO", c!"Cooke17"] (some [.file c!"BAO.ini", .file c!"Cooke17BBN", .dict noCMB])
def bbns : List DS := [
  mkData [c!"BAO", c!"Cooke17", c!"Aver15"] (some [.file c!"Aver15BBN", .file c!"Cooke17BBN", .file c!"BAO.ini", .dict noCMB]),
  mkData [c!"BAO", c!"Cooke17Marc", c!"Aver15"] (some [.file c!"Aver15BBN",
    .dict [(c!"abundance_dataset[Cooke17Marc]", c!"%DATASETDIR%D_Cooke2017_marcucci.dataset")], .file c!"BAO.ini", .dict noCMB]),
  mkData [c!"BAO", c!"Cooke17Adel", c!"Aver15"] (some [.file c!"Aver15BBN",
    .dict [(c!"abundance_dataset[Cooke17Adel]", c!"%DATASETDIR%D_Cooke2017_adelberger.dataset")], .file c!"BAO.ini", .dict noCMB])]

def groups18 : List Group := [
  group c!"main" [[], [c!"omegak"], [c!"mnu"], [c!"r"], [c!"nrun", c!"r"], [c!"nnu"], [c!"nrun"], [c!"Alens"], [c!"yhe"], [c!"w"], [c!"alpha1"]]
    [postBAO, postLensing, postLensingBAO, postHST, postBBN] main18,
  group c!"mainpol" [[], [c!"mnu"], [c!"nnu"], [c!"nrun"], [c!"Alens"], [c!"yhe"], [c!"r"]] [postBAO] (pol18.map lowE),
  group c!"polbao" [[], [c!"mnu"], [c!"nnu"]] [postLensing] (pol18.map (fun d => bao (lowE d))),
  group c!"pollensing" [[]] [] (pol18.map (fun d => lensing (lowE d)) ++ pol18.map (fun d => cooke (bao (lensing (lowE d)))) ++
    pol18.map (fun d => cooke (lensing (lowE d)))),
  group c!"nopoltau" [[]] [postBAO] (highL18.map lowl ++ highL18.map (fun d => lensing (lowl d)) ++
    highL18.map (fun d => plusF c!"reion" c!"reion_tau.ini" (lowl d))),
  group c!"nopoltaumnu" [[c!"mnu"], [c!"Alens"]] [postBAO] (highL18.map (fun d => lensing (lowl d))),
  group c!"ext" [[c!"nnu", c!"meffsterile"], [c!"nnu", c!"mnu"], [c!"nnu", c!"yhe"]] [postBAO, postHST, postLensing, postLensingBAO] main18,
  group c!"geom" [[c!"omegak"], [c!"w"], [c!"w", c!"wa"]] [postLensing, postLensingPantheon]
    (main18.map bao ++ main18.map (fun d => plus c!"JLA" (hst (bao d)))),
  group c!"de" [[c!"w"], [c!"w", c!"wa"]] [postLensing] (main18.map (fun d => pantheon (bao d)) ++ main18.map (fun d => pantheon (hst (bao d)))),
  group c!"lensing" [[c!"omegak"], [c!"mnu"], [c!"Alens"]] [postBAO] (main18.map lensing),
  group c!"inflat" [[c!"r"], [c!"nrun", c!"r"]] [postBAO] (main18.map lensing),
  group c!"basebest" [[]] [postBAO, postHST, postBAOHST, postPantheon, postBAOHSTJLA, postBAOPantheon, postBAOHSTPantheon] (main18.map lensing),
  group c!"mnu" [[c!"mnu"], [c!"nnu", c!"meffsterile"], [c!"nnu", c!"mnu"]] [postPantheon, postAver15, postBBN]
    (main18.map bao ++ main18.map (fun d => bao (lensing d))),
  group c!"nonbbn" [[c!"yhe"], [c!"nnu", c!"yhe"]] [postBAO, postLensing, postLensingBAO] (main18.map (plusF c!"Aver15" c!"Aver15BBN")),
  group c!"nnu" [[c!"nnu"]] [postLensingJLA, postLensingPantheon, postLensing, postAver15, postBBN] (main18.map bao),
  group c!"HST" [[c!"nnu"]] [postBAO, postBAOPantheon, postLensing, postLensingBAO, postBAOlensingPantheon] (main18.map hst),
  group c!"cleaned" [[], [c!"mnu"], [c!"nnu"], [c!"yhe"], [c!"Alens"], [c!"omegak"], [c!"nrun"], [c!"r"], [c!"w"]] []
    [lowE (lowl (mkData [c!"CleanedCamSpecHM", c!"TT"] (some [.seq [.file c!"nonclik_v10_7_TT_clean.ini"]])))],
  group c!"lensonly" [[], [c!"mnu"]] (postPantheon :: lensRuns) [lensData, theta lensData, bao lensData, theta (bao lensData)],
  group c!"lensTT" [[], [c!"mnu"]] [] [lensTT, theta lensTT, bao lensTT, theta (bao lensTT)],
  group c!"lensonlyastro" [[], [c!"mnu"]] [] [lensAstro, bao lensAstro, cooke lensAstro, bao (cooke lensAstro)],
  group c!"Aphiphi" [[c!"Aphiphi"]] [] (main18.map lensing),
  group c!"Alens" [[], [c!"Alens"]] [postBAO] (highL18.flatMap (fun d => [d, lowl d, lowE d])),
  group c!"WMAP" [[]] [postBAO] [mkData [c!"WMAP"] (some [.file c!"WMAP.ini"])],
  group c!"BK15" [[c!"r"], [c!"nrun", c!"r"]] [postBAO, postLensing, postLensingBAO]
    (main18.map (plus c!"BK15") ++ [lensing (plus c!"BK15" (lowE (lowl baseTTTEEE)))]),
  group c!"DES" [[], [c!"mnu"]] [] (des ++ des.map lensPlus ++ des.map bao ++ des.map (fun d => bao (lensPlus d))),
  group c!"DESastro" [[], [c!"mnu"]] [] (desAstro ++ desAstro.map lensPlus ++ desAstro.map (fun d => cooke (bao d)) ++
    desAstro.map (fun d => cooke (bao (lensPlus d)))),
  group c!"DESPlanck" [[], [c!"mnu"]] [postBAO, postLensing, postLensingBAO]
    [plus c!"DES" (lowE (lowl baseTTTEEE)), plusF c!"DESlens" c!"DES_lensing" (lowE (lowl baseTTTEEE))],
  group c!"twos" [[c!"nrun", c!"nrunrun"], [c!"nnu", c!"nrun"]] [postBAO, postLensing, postLensingBAO] [lowE (lowl baseTTTEEE)],
  group c!"big" [[c!"nrun", c!"nnu", c!"w", c!"mnu"]] [] [lensing (pantheon (hst (bao (lowE (lowl baseTTTEEE)))))],
  group c!"lensingBBN" [[c!"nnu"], [c!"nnu", c!"mnu"]] [postPantheon] [lensBBN, theta lensBBN],
  group c!"BBN" [[], [c!"mnu"]] [] [bbn, pantheon bbn, plus c!"JLA" bbn, theta (pantheon bbn), theta bbn],
  group c!"BBNnnu" [[c!"nnu"], [c!"nnu", c!"mnu"]] [] (bbns.flatMap (fun d => [d, pantheon d, theta d, theta (pantheon d)]))]

/-- `importance_filters` (settings_planck_2018.py:616) -/
def zreRun : ImpRun := ⟨[c!"zre6p5"], [.other], wantZre⟩

def grid18 : Settings := ⟨groups18, [], [], some [zreRun]⟩

/-- `params` (settings_planck_2018.py:17-31) -/
def params18 : Dict Str Str := [(c!"w", c!"-0.99 -3. 1 0.02 0.02"), (c!"wa", c!"0 -3 2 0.05 0.05"), (c!"mnu", c!"0.02 0 5 0.1 0.03"),
  (c!"omegak", c!"-0.0008 -0.3 0.3 0.001 0.001"), (c!"nnu", c!"3.046 0.05 10 0.05 0.05"), (c!"nrun", c!"0 -1 1 0.005 0.001"),
  (c!"nrunrun", c!"0 -1 1 0.002 0.001"), (c!"r", c!"0 0 3 0.03 0.03"), (c!"Alens", c!"1 0 10 0.05 0.05"),
  (c!"yhe", c!"0.245 0.1 0.5 0.006 0.006"), (c!"alpha1", c!"0 -1 1 0.0003 0.0003"), (c!"meffsterile", c!"0.1 0 3 0.1 0.03"),
  (c!"Aphiphi", c!"1 0 10 0.02 0.02"), (c!"Alensf", c!"1 0 10 0.03 0.03")]

/-- `param_extra_opts` (settings_planck_2018.py:34-41) -/
def extra18 : Dict Str (Dict Str Str) := [
  (c!"mnu", [(c!"num_massive_neutrinos", c!"3"), (c!"neutrino_hierarchy", c!"degenerate")]),
  (c!"meffsterile", [(c!"param[mnu]", c!"0.06"), (c!"param[nnu]", c!"3.1 3.046 10 0.05 0.05"), (c!"num_massive_neutrinos", c!"1"),
    (c!"accuracy_level", c!"1.2")]),
  (c!"yhe", [(c!"bbn_consistency", c!"False")]), (c!"r", [(c!"compute_tensors", c!"True")]),
  (c!"nt", [(c!"inflation_consistency", c!"False"), (c!"lmax_tensor", c!"1000")])]

/-- what the run files take from the settings (`defaults`, `param_extra_opts`) -/
def opts18 (path : Str) : GridOpts := { params := params18, paramExtra := some extra18, startAtBestfit := c!"False", defaults := [c!"common.ini"], commonPath := path }

/-! ## The grid of 2015 (settings_planck_2015.py) -/

/-- `planck_highL_sets` (settings_planck_2015.py:81-95) -/
def highL15 : List DS := setsOf c!"plikHM" [] c!"plik_dx11dr2_HM_v18_" c!".ini" tags ++ setsOf c!"CamSpecHM" [c!"nonclik.ini"] c!"CAMspec_" c!".ini" tags
def pol15 : List DS := setsOf c!"plikHM" [] c!"plik_dx11dr2_HM_v18_" c!".ini" polTags ++ setsOf c!"CamSpecHM" [c!"nonclik.ini"] c!"CAMspec_" c!".ini" polTags
def baseTT15 : DS := mkData [c!"plikHM", c!"TT"] (some [.file c!"plik_dx11dr2_HM_v18_TT.ini"])
def teb (d : DS) : DS := plus c!"lowTEB" d
def main15 : List DS := highL15.map teb
def hst15 (d : DS) : DS := plusF c!"H070p6" c!"HST_GPE70p6.ini" d
def theta15 (d : DS) : DS := plusD c!"theta" [(c!"param[theta]", c!"1.0408")] d

def post15 (names files : List Str) : ImpRun := run names files wantFlat
/-- the importance runs (settings_planck_2015.py:141-158) -/
def postJLA15 : ImpRun := post15 [c!"JLA"] [c!"JLA_marge.ini"]
def postHST15 : ImpRun := post15 [c!"H070p6"] [c!"HST_GPE70p6.ini"]
def postNonBAO15 : ImpRun := post15 [c!"H070p6", c!"JLA"] [c!"HST_GPE70p6.ini", c!"JLA_marge.ini"]
def postNonCMB15 : ImpRun := post15 [c!"BAO", c!"H070p6", c!"JLA"] [c!"BAO.ini", c!"HST_GPE70p6.ini", c!"JLA_marge.ini"]
def postAll15 : ImpRun := post15 [c!"lensing", c!"BAO", c!"H070p6", c!"JLA"] [c!"lensing", c!"BAO.ini", c!"HST_GPE70p6.ini", c!"JLA_marge.ini"]
def postAllNonBAO15 : ImpRun := run [c!"lensing", c!"H070p6", c!"JLA"] [c!"lensing", c!"HST_GPE70p6.ini", c!"JLA_marge.ini"] wantBAO
def postZre15 : ImpRun := run [c!"zre6p5"] [c!"zre_prior.ini"] wantZre
def postBAOzre15 : ImpRun := run [c!"BAO", c!"zre6p5"] [c!"BAO.ini", c!"zre_prior.ini"] wantZre
def postReion15 : ImpRun := run [c!"reion"] [c!"reion_tau.ini"] wantZre

def nnuData (d : DS) (n v : Str) : DS := plusD n [(c!"param[nnu]", v)] d
def nnu2 : List DS := main15.map (nnuData · c!"nnup39" c!"3.436") ++ main15.map (nnuData · c!"nnup57" c!"3.616")
def nnu3 : List DS := nnu2 ++ main15.map (nnuData · c!"nnu1" c!"4.046")
def lens15 : DS := mkData [c!"lensonly"] none
def wl15 : List DS := [mkData [c!"WLonly"] none, mkData [c!"WLonlyHeymans"] none]
/-- `likechecks` with `lowTEB` (settings_planck_2015.py:101-103, 520-522) -/
def checks15 : List DS := [teb (mkData [c!"CamSpecDS", c!"TT"] (some [.file c!"nonclik_detsets.ini", .file c!"CAMspec_TT.ini"])),
  teb (mkData [c!"plikDS", c!"TT"] (some [.file c!"plik_dx11dr2_DS_v18_TT.ini"]))]
def bkp15 : DS := plusF c!"BKP" c!"BKPlanck.ini" (teb baseTT15)

/-- the groups (settings_planck_2015.py:164-561) -/
def groups15 : List Group := [
  group c!"main" [[], [c!"omegak"], [c!"mnu"], [c!"r"], [c!"nrun", c!"r"], [c!"nnu"], [c!"nrun"], [c!"Alens"], [c!"yhe"], [c!"w"], [c!"alpha1"]]
    [postBAO, postJLA15, postLensing, postHST15, postAll15, postZre15] main15,
  group c!"mainpol" [[], [c!"mnu"], [c!"nnu"], [c!"nrun"], [c!"Alens"], [c!"yhe"], [c!"r"]] [] (pol15.map teb ++ pol15.map (plus c!"lowEB")),
  group c!"ext" [[c!"nnu", c!"meffsterile"], [c!"nnu", c!"mnu"], [c!"nnu", c!"yhe"]] [postBAO, postHST15, postNonCMB15, postLensing] main15,
  group c!"geom" [[c!"omegak"], [c!"w"], [c!"w", c!"wa"]] [postLensing] (main15.map bao ++ main15.map (fun d => plus c!"JLA" (hst15 (bao d)))),
  group c!"lowTT" [[], [c!"Alens"], [c!"nnu"]] [] (highL15.map (plus c!"lowEB")),
  group c!"tauprior" [[], [c!"Alens"], [c!"nnu"], [c!"nrun"]] [] (highL15.map (plusD c!"tau07" [(c!"prior[tau]", c!"0.07 0.02")])),
  group c!"nopoltau" [[]] [postBAO, postNonCMB15, postZre15, postBAOzre15, postReion15]
    (highL15.map lowl ++ highL15.map (fun d => lensing (lowl d)) ++ highL15.map (fun d => plusF c!"reion" c!"reion_tau.ini" (lowl d))),
  group c!"polnopoltau" [[]] [postBAO, postNonCMB15] (pol15 ++ pol15.map lensing),
  group c!"lowllensing" [[c!"mnu"]] [postBAO, postNonCMB15] (highL15.map (fun d => lensing (lowl d))),
  group c!"lensing" [[c!"omegak"], [c!"mnu"], [c!"nnu", c!"meffsterile"], [c!"nnu", c!"mnu"], [c!"Alens"], [c!"nnu", c!"meffsterile", c!"r"]]
    [postBAO] (main15.map lensing),
  group c!"inflat" [[c!"r"], [c!"nrun", c!"r"]] [postBAO, postNonCMB15, postZre15] (main15.map lensing),
  group c!"basebest" [[]] [postBAO, postJLA15, postHST15, postNonCMB15, postZre15, postBAOzre15, postReion15] (main15.map lensing),
  group c!"mnu" [[c!"mnu"], [c!"nnu", c!"meffsterile"]] [postHST15, postNonBAO15] (main15.map bao ++ main15.map (fun d => bao (lensing d))),
  group c!"mnuAlens" [[c!"mnu", c!"omegak"], [c!"mnu", c!"w"], [c!"mnu", c!"Alens"]] [postNonBAO15] [bao (lensing (teb baseTT15))],
  group c!"nnu" [[c!"nnu"]] [postNonBAO15, postAllNonBAO15, postLensing] (main15.map bao),
  group c!"nnumodels" [[c!"nnu"]] [postAllNonBAO15] (nnu3 ++ (nnu3.filter (fun d => !d.hasName [c!"nnu1"])).map bao ++ nnu3.map lensing),
  group c!"nnu_rmodels" [[c!"nnu", c!"r"]] [] (nnu2 ++ nnu2.map lensing),
  group c!"lensonly" [[], [c!"mnu"], [c!"nnu"]] [] [lens15, bao lens15, theta15 lens15, theta15 (bao lens15)],
  group c!"Aphiphi" [[c!"Aphiphi"]] [] (main15.map lensing),
  group c!"altAlens" [[c!"Alensf"]] [] (main15.map (fun d => d.add none (some [.dict [(c!"highL_unlensed_cl_template",
    c!"./camb/base_plikHM_TT_lowTEB_lensing_lenspotentialCls.dat")]]) true) ++ main15.map lensing),
  group c!"WLonlybase" [[]] [] (wl15 ++ wl15.map bao),
  group c!"WLonly" [[], [c!"mnu"], [c!"nnu", c!"meffsterile"], [c!"nnu", c!"mnu"], [c!"nnu"]] []
    (wl15.map (fun d => theta15 (bao d)) ++ wl15.map (fun d => theta15 (hst15 d)) ++ wl15.map (fun d => theta15 (bao (hst15 d)))),
  group c!"WMAP" [[]] [postBAO, postLensing, postLensingBAO] [mkData [c!"WMAP"] (some [.file c!"WMAP.ini"])],
  group c!"checks" [[], [c!"mnu"], [c!"nnu"], [c!"Alens"], [c!"yhe"]] [] checks15,
  group c!"tauchecks" [[], [c!"mnu"], [c!"nnu"], [c!"Alens"], [c!"yhe"], [c!"r"], [c!"nrun", c!"r"]] [postLensing, postBAO, postLensingBAO]
    [plus c!"WMAPTEB" baseTT15],
  group c!"BKP" [[c!"r"], [c!"nrun", c!"r"]] [postBAO, postNonCMB15] [bkp15, lensing bkp15]]

def grid15 : Settings := ⟨groups15, [], [], none⟩

/-- `params` (settings_planck_2015.py:14-27): those of 2018 without `nrunrun` -/
def params15 : Dict Str Str := params18.filter (fun e => decide (e.1 ≠ c!"nrunrun"))

/-- `param_extra_opts` (settings_planck_2015.py:31-38) -/
def extra15 : Dict Str (Dict Str Str) := (c!"mnu", [(c!"num_massive_neutrinos", c!"3")]) :: extra18.drop 1

def opts15 (path : Str) : GridOpts := { params := params15, paramExtra := some extra15, startAtBestfit := c!"False", defaults := [c!"common.ini"], commonPath := path }

/-! ## The grid of the nominal mission (settings_planck_nominal.py) -/

def set13 (extra : List Str) (spec : Str) (files : List Str) : DS := mkData (c!"planck" :: extra) (some ((spec :: files).map .file))
def cam : Str := c!"CAMspec_nonclik.ini"
def camHigh : Str := c!"CAMspec_ACTSPT_nonclik.ini"
def low : List Str := [c!"lowl.ini", c!"lowLike.ini"]
def post13 (n f : Str) : ImpRun := run [n] [f] wantNotLowl13
def postLensing13 : ImpRun := run [c!"lensing"] [c!"lensing.ini"] wantLensing13
def lowLike13 : DS := set13 [c!"lowl", c!"lowLike"] cam low
def highL13 : DS := set13 [c!"lowl", c!"lowLike", c!"highL"] camHigh low
def with13 (n f : Str) : DS := set13 [c!"lowl", c!"lowLike", n] cam (low ++ [f])
def withHigh13 (n f : Str) : DS := set13 [c!"lowl", c!"lowLike", c!"highL", n] camHigh (low ++ [f])

/-- the groups (settings_planck_nominal.py:27-43, 59-125) -/
def groups13 : List Group := [
  group c!"main" [[], [c!"omegak"], [c!"mnu"], [c!"nrun", c!"r"], [c!"r"], [c!"nnu"], [c!"nrun"], [c!"Alens"], [c!"w"], [c!"yhe"], [c!"alpha1"]]
    [postLensing13, post13 c!"BAO" c!"BAO.ini", post13 c!"HST" c!"HST.ini", post13 c!"SNLS" c!"SNLS_marge.ini", post13 c!"Union2" c!"Union.ini"]
    [lowLike13, highL13, set13 [c!"lowl"] cam [c!"lowl.ini"], mkData [c!"WMAP"] (some [.file c!"WMAP.ini"])],
  group c!"ext" [[c!"nnu", c!"yhe"], [c!"nnu", c!"mnu"], [c!"nnu", c!"meffsterile"], [c!"mnu", c!"omegak"], [c!"mnu", c!"Alens"],
      [c!"nrun", c!"r", c!"omegak"]]
    [postLensing13, post13 c!"BAO" c!"BAO.ini", post13 c!"HST" c!"HST.ini"] [lowLike13, highL13],
  group c!"geom" [[c!"omegak"], [c!"nnu"], [c!"w"], [c!"w", c!"wa"], [c!"nrun", c!"r", c!"omegak"], [c!"mnu", c!"omegak"]]
    [postLensing13, post13 c!"BAO" c!"BAO.ini", post13 c!"HST" c!"HST.ini"]
    [with13 c!"BAO" c!"BAO.ini", withHigh13 c!"BAO" c!"BAO.ini", with13 c!"SNLS" c!"SNLS.ini", with13 c!"Union2" c!"Union.ini", with13 c!"HST" c!"HST.ini"],
  group c!"lensing" [[c!"mnu"], [c!"omegak"]] [post13 c!"BAO" c!"BAO.ini", post13 c!"HST" c!"HST.ini", post13 c!"SNLS" c!"SNLS_marge.ini"]
    [with13 c!"lensing" c!"lensing.ini", withHigh13 c!"lensing" c!"lensing.ini"],
  group c!"Aphiphi" [[c!"Aphiphi"]] [] [withHigh13 c!"lensing" c!"lensing.ini"],
  group c!"tauprior" [[], [c!"mnu"], [c!"Alens"]] [postLensing13]
    [set13 [c!"tauprior"] cam [c!"tauprior.ini"], set13 [c!"tauprior", c!"highL"] camHigh [c!"tauprior.ini"]]]

/-- `skip` (settings_planck_nominal.py:127) -/
def skip13 : List Str := [c!"base_nnu_meffsterile_planck_lowl_lowLike"]

def grid13 : Settings := ⟨groups13, [], [], none⟩

/-- `default_params` (gridconfig.py:12-28) -/
def paramsDefault : Dict Str Str := [(c!"mnu", c!"0.02 0 5 0.1 0.03"), (c!"omegak", c!"-0.0008 -0.3 0.3 0.001 0.001"),
  (c!"w", c!"-0.995 -3 -0.3 0.02 0.02"), (c!"nnu", c!"3.046 0.05 10 0.05 0.05"), (c!"nrun", c!"0 -1 1 0.005 0.001"),
  (c!"nrunrun", c!"0 -1 1 0.005 0.001"), (c!"r", c!"0 0 3 0.03 0.03"), (c!"Alens", c!"1 0 10 0.05 0.05"),
  (c!"yhe", c!"0.245 0.1 0.5 0.006 0.006"), (c!"alpha1", c!"0 -1 1 0.0003 0.0003"), (c!"deltazrei", c!"0.5 0.1 3 0.3 0.3"),
  (c!"wa", c!"0 -2 2 0.3 0.3"), (c!"meffsterile", c!"0.1 0 3 0.1 0.03"), (c!"Aphiphi", c!"1 0 10 0.02 0.02"),
  (c!"Alensf", c!"1 0 10 0.03 0.03"), (c!"nt", c!"0 -3 3 0.2 0.02")]

/-- `default_param_extra_opts` (gridconfig.py:30-37) is that of 2018 -/
def opts13 (path : Str) : GridOpts :=
  { params := paramsDefault, paramExtra := some extra18, startAtBestfit := c!"False", defaults := [c!"common_batch1.ini"], commonPath := path }

/-! ## The sample for CamSpec (settings_sample_camspec.py) -/

/-- the groups (settings_sample_camspec.py:16-35) -/
def groupsCam : List Group := [group c!"main" [[], [c!"Alens"]] [run [c!"BAO"] [c!"BAO.ini"] always]
  ([c!"TT", c!"TTTEEE", c!"TE", c!"EE", c!"TEEE"].map (fun v => mkData [c!"CamSpec_v12_5_HM_cln", v, c!"tauP"]
    (some [.file (c!"camspec_v12_5_HM_cln_" ++ v ++ c!".ini"), .file c!"tauprior.ini"])))]

def gridCam : Settings := ⟨groupsCam, [], [], none⟩

end Verif.PlanckGrids
