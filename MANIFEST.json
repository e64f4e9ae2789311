{
 "claims": [
  {
   "property": "C01",
   "status": "proved",
   "theorems": [
    "Verif.IniFile.save_load_roundtrip",
    "Verif.IniFile.roundtrip_fails_for_references"
   ],
   "note": "Round trip for every table with one-line names/values. The excluded case (values containing $( while expansion is on) is shown to fail."
  },
  {
   "property": "C02",
   "status": "proved",
   "theorems": [
    "Verif.IniFile.load_precedence",
    "Verif.IniFile.load_own_setting_wins"
   ],
   "note": ""
  },
  {
   "property": "C03",
   "status": "proved",
   "theorems": [
    "Verif.IniFile.load_ok_no_clash",
    "Verif.IniFile.load_dup_iff"
   ],
   "note": ""
  },
  {
   "property": "C04",
   "status": "proved",
   "theorems": [
    "Verif.IniFile.saved_names",
    "Verif.IniFile.params_wf_load",
    "Verif.IniFile.params_wf_edits",
    "Verif.IniFile.deleted_not_stored"
   ],
   "note": ""
  },
  {
   "property": "C05",
   "status": "proved",
   "theorems": [
    "Verif.IniFile.expand_no_ref",
    "Verif.IniFile.expand_no_dollar",
    "Verif.IniFile.expand_tokens",
    "Verif.IniFile.expand_unterminated",
    "Verif.IniFile.expand_trailing_dollar",
    "Verif.IniFile.tokens_exhaustive",
    "Verif.IniFile.expand_escape_inconsistent"
   ],
   "note": ""
  },
  {
   "property": "C06",
   "status": "proved",
   "theorems": [
    "Verif.IniFile.comments_direct"
   ],
   "note": ""
  },
  {
   "property": "C07",
   "status": "proved",
   "theorems": [
    "Verif.ParamNames.paramnames_roundtrip",
    "Verif.ParamNames.label_bang_fails",
    "Verif.ParamNames.setName_spec"
   ],
   "note": "For all representable parameters; label_bang_fails shows that the exclusion of '!' from labels is needed."
  },
  {
   "property": "C08",
   "status": "proved",
   "theorems": [
    "Verif.ParamNames.keywords_roundtrip"
   ],
   "note": "The keyword provider (external) is modelled as a table of value/comment pairs."
  },
  {
   "property": "C09",
   "status": "proved",
   "theorems": [
    "Verif.ParamNames.mergeRenames_sound",
    "Verif.ParamNames.mergeRenames_complete"
   ],
   "note": ""
  },
  {
   "property": "C10",
   "status": "proved",
   "theorems": [
    "Verif.ParamNames.parWithName_first",
    "Verif.ParamNames.parWithName_none",
    "Verif.ParamNames.numberOfName_spec",
    "Verif.ParamNames.lookup_agree"
   ],
   "note": ""
  },
  {
   "property": "C11",
   "status": "proved",
   "theorems": [
    "Verif.ParamNames.getMatches_spec",
    "Verif.ParamNames.parsWithNames_spec",
    "Verif.ParamNames.parsWithNames_no_drop",
    "Verif.ParamNames.fnmatchcase_iff",
    "Verif.ParamNames.fnmatchcase_full",
    "Verif.ParamNames.getMatches_full",
    "Verif.ParamNames.globMatch_iff",
    "Verif.ParamNames.inClass_iff"
   ],
   "note": ""
  },
  {
   "property": "C12",
   "status": "proved",
   "theorems": [
    "Verif.Confidence.confidence_is_quantile",
    "Verif.Confidence.confidence_sort_independent",
    "Verif.Confidence.confidence_monotone",
    "Verif.Confidence.confidence_tails",
    "Verif.Confidence.twoTailLimits_contains",
    "Verif.Confidence.confidence_empty",
    "Verif.Confidence.confidence_beyond"
   ],
   "note": ""
  },
  {
   "property": "C13",
   "status": "proved",
   "theorems": [
    "Verif.Thin.thin_dense",
    "Verif.Thin.thin_sparse",
    "Verif.Thin.thin_dense_counts",
    "Verif.Thin.thin_sparse_counts",
    "Verif.Thin.thin_refuses_noninteger",
    "Verif.Thin.thin_refuses_factor",
    "Verif.Thin.thin_terminates"
   ],
   "note": ""
  },
  {
   "property": "C14",
   "status": "proved",
   "theorems": [
    "Verif.Samples.mean_eq",
    "Verif.Samples.var_eq",
    "Verif.Samples.covPars_eq",
    "Verif.Samples.mean_between",
    "Verif.Samples.var_nonneg_zero",
    "Verif.Samples.cov_symm_psd",
    "Verif.Samples.getCov_psd",
    "Verif.Samples.mean_var_affine",
    "Verif.Samples.cov_shift",
    "Verif.Samples.meanList_where",
    "Verif.Samples.varList_where_fails"
   ],
   "note": "Exact arithmetic (any ordered field). varList_where_fails: var of a list of vectors ignores its where argument."
  },
  {
   "property": "C15",
   "status": "proved",
   "theorems": [
    "Verif.Samples.correlation_normalised",
    "Verif.Samples.at2_covToCorr"
   ],
   "note": "sqrt is any function with sqrt x * sqrt x = x on non-negative x."
  },
  {
   "property": "C16",
   "status": "proved",
   "theorems": [
    "Verif.Samples.history_on_records",
    "Verif.Samples.setColData_agrees"
   ],
   "note": ""
  },
  {
   "property": "C17",
   "status": "proved",
   "theorems": [
    "Verif.Samples.accessors_never_stale",
    "Verif.Samples.getMeans_spec",
    "Verif.Samples.getVars_spec",
    "Verif.Samples.getCov_spec"
   ],
   "note": ""
  },
  {
   "property": "C18",
   "status": "proved",
   "theorems": [
    "Verif.Samples.reweight_compose",
    "Verif.Samples.reweight_offset",
    "Verif.Samples.reweight_ratio",
    "Verif.Samples.cool_compose",
    "Verif.Samples.cool_one",
    "Verif.Samples.sameDist_stats",
    "Verif.Samples.isExp_real"
   ],
   "note": "exp is any positive function with exp (x+y) = exp x * exp y; Real.exp is an instance."
  },
  {
   "property": "C19",
   "status": "proved",
   "theorems": [
    "Verif.Chains.combine_split",
    "Verif.Chains.makeSingle_combined",
    "Verif.Chains.makeSingle_columns",
    "Verif.Chains.getSeparate_agrees",
    "Verif.Chains.split_without_loglikes_fails",
    "Verif.Chains.split_drops_rows_fails",
    "Verif.Chains.split_empty_chain_fails"
   ],
   "note": "For chains with likelihoods, none of them empty and no row below the weight cut; the _fails theorems show each of these conditions is needed."
  },
  {
   "property": "C20",
   "status": "proved",
   "theorems": [
    "Verif.Chains.filter_mask",
    "Verif.Chains.filter_needs_combined",
    "Verif.Chains.deleteZeros_segs",
    "Verif.Chains.setMinWeight_segs",
    "Verif.Chains.weightedThin_separate",
    "Verif.Chains.weightedThin_combined",
    "Verif.Chains.weightedThin_plain",
    "Verif.Chains.filter_indices_fails"
   ],
   "note": "Boolean masks and weighted thinning. filter_indices_fails: an index list (also allowed by the documentation) gives wrong boundaries."
  },
  {
   "property": "C21",
   "status": "proved",
   "theorems": [
    "Verif.Chains.burn_each_chain",
    "Verif.Chains.burn_each_chain_cut",
    "Verif.Chains.burn_needs_samples",
    "Verif.Chains.dropped_unique",
    "Verif.Samples.burnRows_meaning"
   ],
   "note": ""
  },
  {
   "property": "C22",
   "status": "proved",
   "theorems": [
    "Verif.Chains.deleteFixed_combined",
    "Verif.Chains.fixed_const",
    "Verif.Samples.fixedCols_empty",
    "Verif.Samples.deleteIdx_rest"
   ],
   "note": ""
  },
  {
   "property": "C23",
   "status": "proved",
   "theorems": [
    "Verif.ChainFiles.accepts_iff",
    "Verif.ChainFiles.chainFiles_spec",
    "Verif.ChainFiles.chainFiles_error",
    "Verif.ChainFiles.numbered_unique",
    "Verif.ChainFiles.find_spec",
    "Verif.ChainFiles.hasChainFiles_spec"
   ],
   "note": ""
  },
  {
   "property": "C24",
   "status": "proved",
   "theorems": [
    "Verif.Cov.merge_spec",
    "Verif.Cov.merge_symmetric",
    "Verif.Cov.mergeAll_spec",
    "Verif.Cov.mergeAll_entry"
   ],
   "note": ""
  },
  {
   "property": "C25",
   "status": "proved",
   "theorems": [
    "Verif.Cov.save_load",
    "Verif.Cov.save_load_twice",
    "Verif.Cov.rescale_spec",
    "Verif.Cov.rescale_rescale",
    "Verif.Cov.rescale_one",
    "Verif.Cov.rescale_symmetric",
    "Verif.Cov.rescale_unknown",
    "Verif.Cov.correlation_diagonal"
   ],
   "note": ""
  },
  {
   "property": "C26",
   "status": "proved",
   "theorems": [
    "Verif.Bounds.run_inv",
    "Verif.Bounds.save_load",
    "Verif.Bounds.save_load_order"
   ],
   "note": ""
  },
  {
   "property": "C27",
   "status": "proved",
   "theorems": [
    "Verif.Bounds.run_spec",
    "Verif.Bounds.setRange_both",
    "Verif.Bounds.fixedValue_iff",
    "Verif.Bounds.fixedValueDict_get"
   ],
   "note": ""
  },
  {
   "property": "C28",
   "status": "partial",
   "theorems": [
    "Verif.JobQueue.history_partial",
    "Verif.JobQueue.resubmit_fails",
    "Verif.JobQueue.same_run_twice_fails",
    "Verif.JobQueue.concurrent_add_fails"
   ],
   "note": "Proved for histories in which a new job shares no id, name or run name with a live job. False when a run is submitted again (resubmit_fails, for every index) or two processes add jobs at once."
  },
  {
   "property": "C29",
   "status": "partial",
   "theorems": [
    "Verif.JobQueue.load_save",
    "Verif.JobQueue.addJobIndex_all",
    "Verif.JobQueue.crash_partial",
    "Verif.JobQueue.save_after_crash",
    "Verif.JobQueue.crash_fails"
   ],
   "note": "False for a crash between removing the old file and renaming the new one: the next load gives an empty index."
  },
  {
   "property": "C30",
   "status": "proved",
   "theorems": [
    "Verif.JobQueue.resources_iff",
    "Verif.JobQueue.resources_refused",
    "Verif.JobQueue.default_resources",
    "Verif.JobQueue.machineCores_spec",
    "Verif.JobQueue.adjust_spec"
   ],
   "note": ""
  },
  {
   "property": "C31",
   "status": "proved",
   "theorems": [
    "Verif.JobQueue.precedence",
    "Verif.JobQueue.extractValue_spec",
    "Verif.JobQueue.extractValue_none"
   ],
   "note": ""
  },
  {
   "property": "C32",
   "status": "proved",
   "theorems": [
    "Verif.JobQueue.batch_spec",
    "Verif.JobQueue.batch_single",
    "Verif.JobQueue.batch_short",
    "Verif.JobQueue.batch_combined",
    "Verif.JobQueue.jobName_short",
    "Verif.JobQueue.stripIni_spec"
   ],
   "note": ""
  },
  {
   "property": "C33",
   "status": "proved",
   "theorems": [
    "Verif.Batch.normed_perm",
    "Verif.Batch.normedTag_inj",
    "Verif.Batch.normalizeDataTag_eq",
    "Verif.Batch.normedName_inj",
    "Verif.Batch.matches_of_mem",
    "Verif.Batch.matches_sound",
    "Verif.Batch.extend_twice",
    "Verif.Batch.namesReplacing_spec",
    "Verif.Batch.tagReplacing_spec"
   ],
   "note": ""
  },
  {
   "property": "C34",
   "status": "proved",
   "theorems": [
    "Verif.Batch.makeImportance_spec",
    "Verif.Batch.applies_iff",
    "Verif.Batch.groupItems_spec",
    "Verif.Batch.dedupe_spec",
    "Verif.Batch.makeItems_spec",
    "Verif.Batch.dedupe_keeps",
    "Verif.Batch.name_inj",
    "Verif.Batch.names_nodup",
    "Verif.Batch.applyFilters_spec",
    "Verif.Batch.existingOnly_spec",
    "Verif.Batch.chainRoot_place",
    "Verif.Batch.impRoot_place",
    "Verif.Batch.iniFile_kinds"
   ],
   "note": ""
  },
  {
   "property": "C35",
   "status": "proved",
   "theorems": [
    "Verif.Batch.filtered_iff",
    "Verif.Batch.filtered_order",
    "Verif.Batch.paramtagDict_spec",
    "Verif.Batch.filterForDataCompare_iff",
    "Verif.Batch.filterForDataCompare_data",
    "Verif.Batch.importance_selects",
    "Verif.Batch.importance_group"
   ],
   "note": ""
  },
  {
   "property": "C36",
   "status": "proved",
   "theorems": [
    "Verif.Batch.resolveName_finds",
    "Verif.Batch.resolveName_sound",
    "Verif.Batch.resolveRoot_spec",
    "Verif.ChainGrid.resolve_normed",
    "Verif.ChainGrid.resolve_sound"
   ],
   "note": ""
  },
  {
   "property": "C37",
   "status": "proved",
   "theorems": [
    "Verif.Batch.updItems_spec",
    "Verif.Batch.jobIni_spec",
    "Verif.Batch.option_order",
    "Verif.Batch.add_end",
    "Verif.Batch.minimize_spec",
    "Verif.Batch.impIni_spec",
    "Verif.Batch.mkData_default",
    "Verif.Batch.mkData_given"
   ],
   "note": ""
  },
  {
   "property": "C38",
   "status": "proved",
   "theorems": [
    "Verif.Density.level_encloses",
    "Verif.Density.levels_antitone",
    "Verif.Density.level_found",
    "Verif.Density.levelAt_refused"
   ],
   "note": ""
  },
  {
   "property": "C39",
   "status": "proved",
   "theorems": [
    "Verif.Density.integrate1_trapezoid",
    "Verif.Density.integrate2_trapezoid",
    "Verif.Density.integrate1_scale",
    "Verif.Density.integrate1_add",
    "Verif.Density.integrate1_nonneg",
    "Verif.Density.normalize_integral",
    "Verif.Density.normalize_1D",
    "Verif.Density.normalize_2D",
    "Verif.Density.normalize_max"
   ],
   "note": ""
  },
  {
   "property": "C40",
   "status": "proved",
   "theorems": [
    "Verif.Convolve.nearest_spec",
    "Verif.Convolve.nearest_refused",
    "Verif.Convolve.nearest_ok",
    "Verif.Convolve.nearest_idem"
   ],
   "note": ""
  },
  {
   "property": "C41",
   "status": "proved",
   "theorems": [
    "Verif.Convolve.convolveFFT_spec",
    "Verif.Convolve.convolveFFT_ok",
    "Verif.Convolve.convolve1D_spec",
    "Verif.Convolve.convolve2D_spec",
    "Verif.Convolve.full_mass",
    "Verif.Convolve.lin_comm",
    "Verif.Convolve.autoConvolve_spec",
    "Verif.Convolve.autoConvolve_large",
    "Verif.Convolve.autoCorrelation_first",
    "Verif.Convolve.autoCorrelation_spec",
    "Verif.Convolve.gaussian_place",
    "Verif.Convolve.gaussWin_spec",
    "Verif.Convolve.gaussianTrunc_spec",
    "Verif.Convolve.gaussianDCT_place",
    "Verif.Convolve.npFFT_ok",
    "Verif.Convolve.npFFT2_ok",
    "Verif.Convolve.npAuto_ok",
    "Verif.Convolve.fillOf_range"
   ],
   "note": ""
  },
  {
   "property": "C42",
   "status": "proved",
   "theorems": [
    "Verif.NumFmt.roundDigits_spec",
    "Verif.NumFmt.numberFigs_spec",
    "Verif.NumFmt.numberFigs_error",
    "Verif.NumFmt.numberFigs_exact",
    "Verif.NumFmt.numberFigs_zero",
    "Verif.NumFmt.numberFigs_figures",
    "Verif.NumFmt.numberFigsSci_error",
    "Verif.NumFmt.formatNumber_sign",
    "Verif.NumFmt.fmtF_spec"
   ],
   "note": "Exact decimals; rounding half even is proved to be the nearest decimal with n figures for every finite decimal."
  },
  {
   "property": "C43",
   "status": "proved",
   "theorems": [
    "Verif.Table.layoutRows_spec",
    "Verif.Table.tableRows_spec",
    "Verif.Table.numRow_spec",
    "Verif.Table.tableRows_empty_fails",
    "Verif.Table.cell_spec"
   ],
   "note": "For at least one parameter and column; an empty list or zero columns raise an exception."
  },
  {
   "property": "C44",
   "status": "proved",
   "theorems": [
    "Verif.LoadCache.load_spec",
    "Verif.LoadCache.findFiles_spec",
    "Verif.LoadCache.cobaya_settings_watched",
    "Verif.LoadCache.cache_sound"
   ],
   "note": ""
  },
  {
   "property": "C45",
   "status": "proved",
   "theorems": [
    "Verif.Kde1D.binSamples_valid",
    "Verif.Kde1D.bin_at_limit",
    "Verif.Kde1D.binSamples_affine",
    "Verif.Kde1D.kdeBin_valid",
    "Verif.Kde1D.bincount_spec",
    "Verif.Kde1D.histogram_spec",
    "Verif.Kde1D.make2Dhist_spec"
   ],
   "note": ""
  },
  {
   "property": "C46",
   "status": "proved",
   "theorems": [
    "Verif.Combine.combine_rows",
    "Verif.Combine.combined_shares",
    "Verif.Combine.combined_plain",
    "Verif.Combine.combined_mean",
    "Verif.Combine.build_keeps"
   ],
   "note": ""
  },
  {
   "property": "C47",
   "status": "proved",
   "theorems": [
    "Verif.CMBlikes.unpack_pack",
    "Verif.CMBlikes.pack_unpack",
    "Verif.CMBlikes.unpack_symm",
    "Verif.CMBlikes.colOf_spec",
    "Verif.CMBlikes.pairIndices_name",
    "Verif.CMBlikes.useCols_name",
    "Verif.CMBlikes.useCols_comm",
    "Verif.CMBlikes.usedIndex_ok",
    "Verif.CMBlikes.separator_in_name_fails"
   ],
   "note": "Names must be distinct, non-empty and without the separator character (one letter each without map_names); separator_in_name_fails shows why."
  },
  {
   "property": "C48",
   "status": "partial",
   "theorems": [
    "Verif.CMBlikes.used_fields",
    "Verif.CMBlikes.required_maps_fails",
    "Verif.CMBlikes.used_fields_partial"
   ],
   "note": "True without maps_use. With maps_use every required map is also used in the likelihood, because require_map is a numpy view of use_map (proved for all settings)."
  },
  {
   "property": "C49",
   "status": "proved",
   "theorems": [
    "Verif.MargeStats.mkLim_tag",
    "Verif.MargeStats.mkLim_kind",
    "Verif.MargeStats.load_toText",
    "Verif.MargeStats.kinds_recovered",
    "Verif.MargeStats.short_of",
    "Verif.MargeStats.nameWidth_spec",
    "Verif.MargeStats.header_spec"
   ],
   "note": ""
  },
  {
   "property": "C50",
   "status": "proved",
   "theorems": [
    "Verif.GridFiles.copy_chain_spec",
    "Verif.GridFiles.copy_chain_whole",
    "Verif.GridFiles.copy_chain_gap",
    "Verif.GridFiles.copy_flag",
    "Verif.GridFiles.chainNums_spec",
    "Verif.GridFiles.default_exts",
    "Verif.GridFiles.dryrun_nothing",
    "Verif.GridFiles.age_spec",
    "Verif.GridFiles.age_chains",
    "Verif.GridFiles.skips_spec"
   ],
   "note": ""
  },
  {
   "property": "C51",
   "status": "partial",
   "theorems": [
    "Verif.IniFile.loaded_filename_partial",
    "Verif.IniFile.loaded_filename_fails"
   ],
   "note": "False when the file has INCLUDE/DEFAULT lines (loaded_filename_fails); proved otherwise."
  },
  {
   "property": "C52",
   "status": "proved",
   "theorems": [
    "Verif.IniFile.bool_roundtrip",
    "Verif.IniFile.bool_decision",
    "Verif.IniFile.getString_bool"
   ],
   "note": ""
  },
  {
   "property": "C53",
   "status": "proved",
   "theorems": [
    "Verif.ParamNames.updateRenames_spec"
   ],
   "note": ""
  },
  {
   "property": "C54",
   "status": "proved",
   "theorems": [
    "Verif.ParamNames.deleteIndices_spec",
    "Verif.ParamNames.filteredCopy_spec"
   ],
   "note": ""
  },
  {
   "property": "C55",
   "status": "partial",
   "theorems": [
    "Verif.ParamNames.mergeRenames_sound",
    "Verif.ParamNames.mergeRenames_dropped_partial",
    "Verif.ParamNames.mergeRenames_drops_fails",
    "Verif.ParamNames.mergeRenames_leftmost_fails"
   ],
   "note": "False of the code (mergeRenames_drops_fails, mergeRenames_leftmost_fails); proved: entries returned are whole classes, and a class is dropped only if each input has none or all of its names as keys."
  },
  {
   "property": "C56",
   "status": "proved",
   "theorems": [
    "Verif.IniFile.include_name",
    "Verif.IniFile.keep_includes",
    "Verif.IniFile.include_unclosed_fails",
    "Verif.IniFile.pathJoin_spec"
   ],
   "note": "include_unclosed_fails: an unclosed bracket loses the last character of the file name."
  },
  {
   "property": "C57",
   "status": "proved",
   "theorems": [
    "Verif.Chains.history_segs",
    "Verif.Chains.loadList_segs"
   ],
   "note": ""
  },
  {
   "property": "C58",
   "status": "proved",
   "theorems": [
    "Verif.Chains.paramvec_name",
    "Verif.Chains.addDerived_spec",
    "Verif.Chains.index_get"
   ],
   "note": ""
  },
  {
   "property": "C59",
   "status": "proved",
   "theorems": [
    "Verif.ChainFiles.save_found",
    "Verif.ChainFiles.saveName_injective",
    "Verif.ChainFiles.saveMeta_iff"
   ],
   "note": ""
  },
  {
   "property": "C60",
   "status": "proved",
   "theorems": [
    "Verif.Chains.readBurn_once",
    "Verif.Chains.burnRemoved_none",
    "Verif.Chains.burnOptions_props"
   ],
   "note": ""
  },
  {
   "property": "C61",
   "status": "proved",
   "theorems": [
    "Verif.Chains.loadFile_ag",
    "Verif.Chains.few_columns_refused",
    "Verif.Chains.loadFile_plain",
    "Verif.Chains.loadFiles_separate"
   ],
   "note": ""
  },
  {
   "property": "C62",
   "status": "partial",
   "theorems": [
    "Verif.JobQueue.placeholders_partial",
    "Verif.JobQueue.nested_value_fails",
    "Verif.JobQueue.adjacent_fails"
   ],
   "note": "Proved for templates whose placeholders are separated from other text and values without #."
  },
  {
   "property": "C63",
   "status": "proved",
   "theorems": [
    "Verif.JobQueue.deleteJobs_spec",
    "Verif.JobQueue.deleteJobs_dry",
    "Verif.JobQueue.script_calls"
   ],
   "note": ""
  },
  {
   "property": "C64",
   "status": "proved",
   "theorems": [
    "Verif.JobQueue.lineId_full",
    "Verif.JobQueue.lineId_server",
    "Verif.JobQueue.lineId_mem",
    "Verif.JobQueue.queueIds_spec",
    "Verif.JobQueue.wantLine_iff",
    "Verif.JobQueue.wantLine_states",
    "Verif.JobQueue.wantLine_user"
   ],
   "note": ""
  },
  {
   "property": "C65",
   "status": "proved",
   "theorems": [
    "Verif.Batch.mkItem_named",
    "Verif.Batch.impInfo_named",
    "Verif.Batch.strip_post"
   ],
   "note": ""
  },
  {
   "property": "C66",
   "status": "partial",
   "theorems": [
    "Verif.ChainGrid.every_chain_found_partial",
    "Verif.ChainGrid.resolve_normed",
    "Verif.ChainGrid.resolve_sound",
    "Verif.ChainGrid.depth_pair",
    "Verif.ChainGrid.depth_same",
    "Verif.ChainGrid.three_chains_fails",
    "Verif.ChainGrid.same_chain_twice_fails",
    "Verif.ChainGrid.fileRootToRoot_spec",
    "Verif.ChainGrid.normedName_spec",
    "Verif.ChainGrid.normedName_perm",
    "Verif.ChainGrid.rootsForDir_spec"
   ],
   "note": "Proved when a root name occurs at most twice in different folders. False for three chains (two get the same name) and for a chain found twice in one folder (IndexError)."
  },
  {
   "property": "C67",
   "status": "proved",
   "theorems": [
    "Verif.Density.limits_spec",
    "Verif.Density.upper_flat",
    "Verif.Density.array_argument",
    "Verif.Density.mkGrid_norm"
   ],
   "note": ""
  },
  {
   "property": "C68",
   "status": "proved",
   "theorems": [
    "Verif.Kde1D.flat_exact",
    "Verif.Kde1D.boundary_order_refused",
    "Verif.Kde1D.order1_exact",
    "Verif.Kde1D.order2_exact",
    "Verif.Kde1D.free_exact",
    "Verif.Kde1D.density_range",
    "Verif.Kde1D.weight_scale",
    "Verif.Kde1D.window_bounds",
    "Verif.Kde1D.corrected1_exact",
    "Verif.Kde1D.corrected2_exact",
    "Verif.Kde1D.smoothWidth_units",
    "Verif.Kde1D.smoothWidth_spec"
   ],
   "note": ""
  },
  {
   "property": "C69",
   "status": "proved",
   "theorems": [
    "Verif.Kde1D.bounds_spec",
    "Verif.Kde1D.range_spec",
    "Verif.Kde1D.initParam_idem"
   ],
   "note": ""
  },
  {
   "property": "C70",
   "status": "partial",
   "theorems": [
    "Verif.NumFmt.layout_partial",
    "Verif.NumFmt.layout_decimals",
    "Verif.NumFmt.namesigFigs_total",
    "Verif.NumFmt.down_spec",
    "Verif.NumFmt.up_spec",
    "Verif.NumFmt.decimals_fails",
    "Verif.NumFmt.rounding_fails",
    "Verif.NumFmt.zero_fails",
    "Verif.NumFmt.plusMinus_spec",
    "Verif.NumFmt.errSf_two"
   ],
   "note": "The decimals of value and errors agree when the printed figures of the value reach those of the error; false in general (9.9609375 +- 1 gives 9.96 +- 1.0, 123456 +- 30 gives 123500 +- 30)."
  },
  {
   "property": "C71",
   "status": "partial",
   "theorems": [
    "Verif.Table.rows_aligned_partial",
    "Verif.Table.missing_value_fails",
    "Verif.Table.mixed_results_fails",
    "Verif.Table.bestFit_fails",
    "Verif.Table.numFormatter_fails"
   ],
   "note": "Proved when all results have a value for each parameter and show the same columns. False otherwise; best fit tables raise a TypeError; the number formatter option is ignored."
  },
  {
   "property": "C72",
   "status": "proved",
   "theorems": [
    "Verif.MargeStats.margeLimit_spec",
    "Verif.MargeStats.margeLimit_kind",
    "Verif.MargeStats.two_tail"
   ],
   "note": ""
  },
  {
   "property": "C73",
   "status": "proved",
   "theorems": [
    "Verif.Combine.setParams_spec"
   ],
   "note": ""
  },
  {
   "property": "C74",
   "status": "proved",
   "theorems": [
    "Verif.CMBlikes.gaussian_spec",
    "Verif.CMBlikes.residual_plain",
    "Verif.CMBlikes.readCov_spec",
    "Verif.CMBlikes.binCls_spec",
    "Verif.CMBlikes.mapCls_get",
    "Verif.CMBlikes.theory_symm",
    "Verif.CMBlikes.aberrate_linear",
    "Verif.CMBlikes.calibration_spec",
    "Verif.CMBlikes.binned_corr",
    "Verif.CMBlikes.binned_shape",
    "Verif.CMBlikes.theoryCl_values"
   ],
   "note": "Linear algebra is exact and covinv is a parameter."
  },
  {
   "property": "C75",
   "status": "proved",
   "theorems": [
    "Verif.CMBlikes.orderCols_spec",
    "Verif.CMBlikes.readCl_spec"
   ],
   "note": ""
  },
  {
   "property": "C76",
   "status": "proved",
   "theorems": [
    "Verif.CMBlikes.HL.exact_sum",
    "Verif.CMBlikes.HL.exact_nonneg"
   ],
   "note": "Real arithmetic."
  },
  {
   "property": "C77",
   "status": "proved",
   "theorems": [
    "Verif.CMBlikes.HL.hl_spec",
    "Verif.CMBlikes.HL.hl_zero",
    "Verif.CMBlikes.HL.isFun_unique",
    "Verif.CMBlikes.HL.eigh_exists",
    "Verif.CMBlikes.HL.g_sign"
   ],
   "note": "Real arithmetic; eigh is any function with the documented properties."
  },
  {
   "property": "C78",
   "status": "proved",
   "theorems": [
    "Verif.GridFiles.clean_unconfirmed",
    "Verif.GridFiles.clean_spec",
    "Verif.GridFiles.clean_chainnum",
    "Verif.GridFiles.clean_default"
   ],
   "note": ""
  },
  {
   "property": "C79",
   "status": "proved",
   "theorems": [
    "Verif.JobStatus.chainNames_spec",
    "Verif.JobStatus.allChainExists_iff",
    "Verif.JobStatus.dodgy_spec",
    "Verif.JobStatus.notRunning_iff",
    "Verif.JobStatus.convergeStat_spec",
    "Verif.JobStatus.finished_original",
    "Verif.JobStatus.finished_importance",
    "Verif.JobStatus.checkpoint_iff"
   ],
   "note": ""
  },
  {
   "property": "C80",
   "status": "partial",
   "theorems": [
    "Verif.JobStatus.needsUpdate_iff",
    "Verif.JobStatus.parentChanged_iff",
    "Verif.JobStatus.needsUpdate_other_fails",
    "Verif.JobStatus.parentChanged_missing_fails",
    "Verif.JobStatus.needsUpdate_partial"
   ],
   "note": "Only the date of the first chain is looked at (characterised exactly); changes of the others are never noticed."
  },
  {
   "property": "C81",
   "status": "proved",
   "theorems": [
    "Verif.JobStatus.r_written",
    "Verif.JobStatus.converged_spec",
    "Verif.JobStatus.no_eigenvalues",
    "Verif.JobStatus.checkConverge_spec",
    "Verif.JobStatus.autoRow_read"
   ],
   "note": ""
  },
  {
   "property": "C82",
   "status": "proved",
   "theorems": [
    "Verif.JobStatus.wanted_iff"
   ],
   "note": ""
  },
  {
   "property": "C83",
   "status": "proved",
   "theorems": [
    "Verif.GelmanRubin.gr_spec",
    "Verif.GelmanRubin.spectrum_unique",
    "Verif.GelmanRubin.gr_none",
    "Verif.GelmanRubin.gr_library",
    "Verif.GelmanRubin.gr_reparam",
    "Verif.GelmanRubin.gr_worst",
    "Verif.GelmanRubin.gr_zero",
    "Verif.GelmanRubin.eigvals_exists",
    "Verif.GelmanRubin.gr_single",
    "Verif.GelmanRubin.worst_none"
   ],
   "note": "Real arithmetic; eigh and eigvalsh are any functions with the documented properties (shown to exist)."
  },
  {
   "property": "C84",
   "status": "proved",
   "theorems": [
    "Verif.AutoCorr.autocorr_spec",
    "Verif.AutoCorr.length_spec",
    "Verif.AutoCorr.effective_affine",
    "Verif.AutoCorr.effective_weight",
    "Verif.AutoCorr.uncorrelated_bounds",
    "Verif.AutoCorr.kde_bounds",
    "Verif.AutoCorr.kde_affine",
    "Verif.AutoCorr.kde2D_bounds",
    "Verif.AutoCorr.shrink_spec",
    "Verif.AutoCorr.kdeRange_spec",
    "Verif.AutoCorr.form2D_spec",
    "Verif.AutoCorr.lagSum2D_one",
    "Verif.AutoCorr.effKDE2D_swap",
    "Verif.AutoCorr.effKDE2D_units",
    "Verif.AutoCorr.kernelVar_spec"
   ],
   "note": ""
  },
  {
   "property": "C85",
   "status": "partial",
   "theorems": [
    "Verif.IniFile.comments_leak_fails",
    "Verif.IniFile.comments_direct_partial"
   ],
   "note": "False: the comment of a setting that is skipped because it is already defined is attached to the next setting. For the loaded file itself see comments_direct (C06)."
  },
  {
   "property": "C86",
   "status": "partial",
   "theorems": [
    "Verif.Chains.burn_combined_rows_partial",
    "Verif.Chains.thin_boundaries_fails",
    "Verif.Chains.burn_combined_fails",
    "Verif.Chains.filter_indices_fails",
    "Verif.Chains.load_boundaries_fails"
   ],
   "note": "False for each of the four. For burn-in removal the rows kept are right (burn_combined_rows_partial), their boundaries are not."
  },
  {
   "property": "C87",
   "status": "partial",
   "theorems": [
    "Verif.Chains.deleteFixed_separate_partial",
    "Verif.Chains.fixed_first_chain_fails"
   ],
   "note": "Alignment is proved. False: only the first chain is inspected, so data varying in the other chains is lost."
  },
  {
   "property": "C88",
   "status": "partial",
   "theorems": [
    "Verif.ChainFiles.plain_file_two_roots_fails",
    "Verif.ChainFiles.bare_root_fails",
    "Verif.ChainFiles.find_subdirectory_fails",
    "Verif.ChainFiles.root_files_relative_fails",
    "Verif.ChainFiles.root_files_twice_fails",
    "Verif.ChainFiles.numbered_unique_partial"
   ],
   "note": "False: an unnumbered chain file is also taken as a chain of a shorter root; roots without directory and searches with leading directories raise errors or give wrong paths. What holds is C23."
  },
  {
   "property": "C89",
   "status": "partial",
   "theorems": [
    "Verif.Cov.correlation_spec",
    "Verif.Cov.merged_correlation_fails",
    "Verif.Cov.covcomb_zero_hides_fails",
    "Verif.Cov.single_parameter_fails",
    "Verif.Cov.correlation_partial"
   ],
   "note": "False: a one parameter matrix cannot be read back; merged matrices can have correlations above one; a zero entry in the first file hides the value of the second in covcomb. correlation_spec holds for every matrix."
  },
  {
   "property": "C90",
   "status": "partial",
   "theorems": [
    "Verif.Bounds.unset_fails",
    "Verif.Bounds.empty_range_fails",
    "Verif.Bounds.narrow_range_fails",
    "Verif.Bounds.blank_name_fails",
    "Verif.Bounds.stays_range_partial"
   ],
   "note": "False for each: a range cannot be unset, an empty range (upper below lower) counts as fixed, rounding in the file can turn a narrow range into a fixed value, names with blanks are not read back."
  },
  {
   "property": "C91",
   "status": "partial",
   "theorems": [
    "Verif.JobQueue.nonsense_accepted_fails",
    "Verif.JobQueue.cores_option_fails",
    "Verif.JobQueue.zero_threads_fails",
    "Verif.JobQueue.resources_partial"
   ],
   "note": "False: zero nodes or cores are accepted; the default number of chains ignores coresPerNode; more files than runsPerJob gives chains without threads. What holds is C30."
  },
  {
   "property": "C92",
   "status": "partial",
   "theorems": [
    "Verif.JobQueue.same_line_fails",
    "Verif.JobQueue.ext_env_fails",
    "Verif.JobQueue.runsPerJob_fails",
    "Verif.JobQueue.precedence_partial"
   ],
   "note": "False for each of the three. What holds is C31."
  },
  {
   "property": "C93",
   "status": "partial",
   "theorems": [
    "Verif.JobQueue.long_names_fails",
    "Verif.JobQueue.job_name_fails",
    "Verif.JobQueue.stripIni_fails",
    "Verif.JobQueue.batch_partial"
   ],
   "note": "False: under python 3 joined names of 70 or more characters raise a TypeError; different groups can have the same joined name; .ini inside a name is removed too. What holds is C32."
  },
  {
   "property": "C94",
   "status": "partial",
   "theorems": [
    "Verif.Batch.normedTag_inj_fails",
    "Verif.Batch.name_collision_fails",
    "Verif.Batch.normalizeDataTag_fails",
    "Verif.Batch.matches_order_fails",
    "Verif.Batch.normedTag_inj_partial"
   ],
   "note": "False for each. What holds is C33."
  },
  {
   "property": "C95",
   "status": "partial",
   "theorems": [
    "Verif.Batch.makeItems_complete_partial",
    "Verif.Batch.dedupe_loses_fails",
    "Verif.Batch.mkGroup_fails"
   ],
   "note": "Proved for importance runs of full runs in grids without filters and extra runs. False for those applied to an importance run that is removed as a duplicate, which have no other copy; and data sets given to the constructor of a group make the grid fail."
  },
  {
   "property": "C96",
   "status": "partial",
   "theorems": [
    "Verif.Batch.filtered_every_partial",
    "Verif.Batch.filters_ignored_fails"
   ],
   "note": "False: with a data tag the filters on data names are ignored, with a parameter tag those on parameters. Proved when they are not combined."
  },
  {
   "property": "C97",
   "status": "partial",
   "theorems": [
    "Verif.Batch.resolveName_underscore_fails",
    "Verif.Batch.resolveRoot_order_fails",
    "Verif.Batch.resolveName_finds_partial"
   ],
   "note": "False for both. What holds is C36."
  },
  {
   "property": "C98",
   "status": "partial",
   "theorems": [
    "Verif.Batch.job_over_data_fails",
    "Verif.Batch.add_override_fails",
    "Verif.Batch.option_order_partial"
   ],
   "note": "False for each. What holds is C37."
  },
  {
   "property": "C99",
   "status": "partial",
   "theorems": [
    "Verif.Density.half_edge_norm",
    "Verif.Density.half_edge_partial",
    "Verif.Density.half_edge_fails",
    "Verif.Density.missing_norm_fails"
   ],
   "note": "The norm is that of the trapezoid rule, and nothing changes if the density vanishes at the edges. False otherwise: edge bins are sorted by their halved density; the missing mass is not part of the total."
  },
  {
   "property": "C100",
   "status": "partial",
   "theorems": [
    "Verif.Density.integrateN_partial",
    "Verif.Density.integrateN_fails",
    "Verif.Density.normalizeN_fails"
   ],
   "note": "Proved for arrays with at least as many points on the first axis as axes; otherwise IndexError. Normalising needs a spacing that is never set."
  },
  {
   "property": "C101",
   "status": "partial",
   "theorems": [
    "Verif.Convolve.smooth_partial",
    "Verif.Convolve.smooth_fails"
   ],
   "note": "All entries but one, which is a multiple of seven."
  },
  {
   "property": "C102",
   "status": "partial",
   "theorems": [
    "Verif.Convolve.convolve1D_length_fails",
    "Verif.Convolve.cache_id_fails",
    "Verif.Convolve.gaussianTrunc_narrow_fails",
    "Verif.Convolve.gaussian_shared_cache_fails",
    "Verif.Convolve.gaussianDCT_no_cache_fails",
    "Verif.Convolve.convolve1D_partial"
   ],
   "note": "False for each: wrong length, reused ids, empty result, shared cache keys, AttributeError. What holds is C41."
  },
  {
   "property": "C103",
   "status": "partial",
   "theorems": [
    "Verif.LoadCache.new_chain_ignored_fails",
    "Verif.LoadCache.stale_limits_fails",
    "Verif.LoadCache.cache_sound_partial"
   ],
   "note": "False: a chain file added with an old date is ignored; limits in the settings are ignored. The conditions under which it is true are in cache_sound (C44)."
  },
  {
   "property": "C104",
   "status": "partial",
   "theorems": [
    "Verif.Kde1D.kdeBin_centre_fails",
    "Verif.Kde1D.kdeBin_limits_fails",
    "Verif.Kde1D.kdeBin_valid_partial"
   ],
   "note": "False: it truncates instead of rounding and rejects samples outside given limits. Its indices are valid (kdeBin_valid, C45)."
  },
  {
   "property": "C105",
   "status": "partial",
   "theorems": [
    "Verif.Combine.dotted_fails",
    "Verif.Combine.value_name_fails",
    "Verif.Combine.setParams_partial"
   ],
   "note": "False: combining raises AttributeError for a common dotted name; a parameter called a.value besides a and a.b is lost. What holds is C46 and C73."
  },
  {
   "property": "C106",
   "status": "partial",
   "theorems": [
    "Verif.MargeStats.empty_label_fails",
    "Verif.MargeStats.no_names_fails",
    "Verif.MargeStats.load_toText_partial"
   ],
   "note": "False for both. What holds is C49."
  },
  {
   "property": "C107",
   "status": "partial",
   "theorems": [
    "Verif.GridFiles.copy_all_fails",
    "Verif.GridFiles.copy_ext_fails",
    "Verif.GridFiles.copy_again_fails",
    "Verif.GridFiles.copy_chain_partial"
   ],
   "note": "False: a fraction of one or more copies whole files; an extension like * copies the whole chain over the shortened one; a run already without burn-in is shortened again. What holds is C50."
  },
  {
   "property": "C108",
   "status": "partial",
   "theorems": [
    "Verif.ChainFiles.save_txt_root_fails",
    "Verif.ChainFiles.save_found_partial"
   ],
   "note": "False. What holds is C59."
  },
  {
   "property": "C109",
   "status": "partial",
   "theorems": [
    "Verif.Chains.script_fraction_partial",
    "Verif.Chains.script_double_burn_fails",
    "Verif.Chains.script_burn_removed_fails"
   ],
   "note": "Proved for fractions without properties file. False: a number of rows is removed twice, and a chain marked burn_removed loses rows."
  },
  {
   "property": "C110",
   "status": "partial",
   "theorems": [
    "Verif.Chains.samples_are_chains_fails",
    "Verif.Chains.loadFile_plain_partial"
   ],
   "note": "False: the option never reaches the file reader. The reader itself is right (C61)."
  },
  {
   "property": "C111",
   "status": "partial",
   "theorems": [
    "Verif.JobQueue.delete_ids_fails",
    "Verif.JobQueue.delete_range_fails",
    "Verif.JobQueue.py3_delete_fails",
    "Verif.JobQueue.py3_range_fails",
    "Verif.JobQueue.py3_listing_fails",
    "Verif.JobQueue.deleteJobs_partial"
   ],
   "note": "False: the script never deletes by --delete_ids and deletes the whole batch with --delete_id_range; under python 3 the listing is always found empty and nothing is cancelled. What holds is C63 and C64."
  },
  {
   "property": "C112",
   "status": "partial",
   "theorems": [
    "Verif.Batch.impInfo_base_fails",
    "Verif.Batch.impInfo_named_partial"
   ],
   "note": "False when the parameter tag has text before base: it is lost. What holds is C65."
  },
  {
   "property": "C113",
   "status": "partial",
   "theorems": [
    "Verif.Density.trial_partial",
    "Verif.Density.limits_not_monotone_fails",
    "Verif.Density.limits_index_fails",
    "Verif.Density.list_argument_fails"
   ],
   "note": "False: not monotone in the probability, IndexError for small probabilities and flat maxima, only the first result for a list. Proved: the density at the limits is between the grid density that encloses the wanted mass and the next higher one (trial_partial)."
  },
  {
   "property": "C114",
   "status": "partial",
   "theorems": [
    "Verif.Kde1D.priorMask_nowindow_fails",
    "Verif.Kde1D.window_bounds_fails",
    "Verif.Kde1D.flat_exact_partial"
   ],
   "note": "False: the window vanishes and with it the mask at the limits. What holds is C68."
  },
  {
   "property": "C115",
   "status": "partial",
   "theorems": [
    "Verif.Kde1D.bounds_history_fails",
    "Verif.Kde1D.bounds_partial"
   ],
   "note": "False: before, every prior limit is reported. What holds is C69."
  },
  {
   "property": "C116",
   "status": "partial",
   "theorems": [
    "Verif.MargeStats.force_twotail_fails",
    "Verif.MargeStats.max_frac_fails",
    "Verif.MargeStats.two_tail_partial"
   ],
   "note": "False: the flags are overwritten by those of the density. What holds is C72."
  },
  {
   "property": "C117",
   "status": "partial",
   "theorems": [
    "Verif.CMBlikes.noise_twice_fails",
    "Verif.CMBlikes.aberrate_two_fails",
    "Verif.CMBlikes.unrequired_map_fails",
    "Verif.CMBlikes.missing_window_fails",
    "Verif.CMBlikes.duplicate_columns_fails",
    "Verif.CMBlikes.missing_line_fails",
    "Verif.CMBlikes.one_bin_fails",
    "Verif.CMBlikes.readCl_partial"
   ],
   "note": "False for each (the Fortran code deallocates the noise after the first use). What holds is C74 and C75."
  },
  {
   "property": "C118",
   "status": "partial",
   "theorems": [
    "Verif.GridFiles.clean_importance_fails",
    "Verif.GridFiles.clean_default_partial"
   ],
   "note": "False: the default pattern name_*.* also removes the chains of importance sampled versions of the run. Files of runs that do not start with the name and an underscore stay (clean_default, C78)."
  },
  {
   "property": "C119",
   "status": "partial",
   "theorems": [
    "Verif.JobStatus.chainNames_number_fails",
    "Verif.JobStatus.dodgy_none_fails",
    "Verif.JobStatus.dodgy_gap_fails",
    "Verif.JobStatus.dodgy_partial"
   ],
   "note": "False: a given number of chains counts from zero; gaps of two or more are not noticed; no chains raises ValueError. What holds is C79."
  },
  {
   "property": "C120",
   "status": "partial",
   "theorems": [
    "Verif.JobStatus.unreadable_not_listed_fails",
    "Verif.JobStatus.auto_empty_fails",
    "Verif.JobStatus.auto_label_fails",
    "Verif.JobStatus.unknown_not_submitted_fails",
    "Verif.JobStatus.ready_without_samples_fails",
    "Verif.JobStatus.wanted_partial"
   ],
   "note": "False for each. What holds is C81 and C82."
  },
  {
   "property": "C121",
   "status": "partial",
   "theorems": [
    "Verif.AutoCorr.autocorr_default_fails",
    "Verif.AutoCorr.autocorr_default_error_fails",
    "Verif.AutoCorr.length_never_fails",
    "Verif.AutoCorr.kde_few_fails",
    "Verif.AutoCorr.kde_third_fails",
    "Verif.AutoCorr.length_partial"
   ],
   "note": "False: the default range is the number of parameters; if correlations never fall below the threshold the length is that of independent samples; fewer than ten rows raise IndexError; the third correlation is counted half. What holds is C84."
  },
  {
   "property": "C122",
   "status": "proved",
   "theorems": [
    "Verif.BestFit.load_spec",
    "Verif.BestFit.load_weight",
    "Verif.BestFit.load_refused",
    "Verif.BestFit.getParamDict_spec",
    "Verif.BestFit.getParamDict_get",
    "Verif.BestFit.chiSquare_spec",
    "Verif.BestFit.sorted_spec",
    "Verif.BestFit.addBestFit_spec"
   ],
   "note": ""
  },
  {
   "property": "C123",
   "status": "partial",
   "theorems": [
    "Verif.BestFit.no_label_fails",
    "Verif.BestFit.no_kind_fails",
    "Verif.BestFit.fixed_derived_fails",
    "Verif.BestFit.load_spec",
    "Verif.BestFit.load_partial"
   ],
   "note": "The statement is false for the code as it is; each part is refuted in general. What holds is C122."
  },
  {
   "property": "C124",
   "status": "proved",
   "theorems": [
    "Verif.BestFit.means_ordered",
    "Verif.BestFit.region_spec",
    "Verif.BestFit.ndLimits_spec",
    "Verif.BestFit.ndLimits_nested",
    "Verif.BestFit.summary_read"
   ],
   "note": "Means are over the real numbers; rounding is not modelled."
  },
  {
   "property": "C125",
   "status": "partial",
   "theorems": [
    "Verif.BestFit.summary_loses_fails",
    "Verif.BestFit.nd_empty_fails",
    "Verif.BestFit.nd_region_fails",
    "Verif.BestFit.region_spec",
    "Verif.BestFit.region_partial"
   ],
   "note": "The statement is false for the code as it is; each part is refuted in general. What holds is C124."
  },
  {
   "property": "C126",
   "status": "proved",
   "theorems": [
    "Verif.Kde2D.window_spec",
    "Verif.Kde2D.plane_exact_run",
    "Verif.Kde2D.flat_exact2",
    "Verif.Kde2D.density_range2",
    "Verif.Kde2D.density_swap",
    "Verif.Kde2D.density_mirror",
    "Verif.Kde2D.density_scale",
    "Verif.Kde2D.angle_spec",
    "Verif.Kde2D.nbin_spec",
    "Verif.Kde2D.fineBins_spec",
    "Verif.Kde2D.smooth_spec",
    "Verif.Kde2D.winw_spec",
    "Verif.Kde2D.clamp_spec",
    "Verif.Kde2D.shear_spec",
    "Verif.Kde2D.kernelBack_spec",
    "Verif.Kde2D.band_sign",
    "Verif.Kde2D.convolve2D_fits"
   ],
   "note": "Exact arithmetic; exp and sqrt by their laws; the kernel optimizer is not modelled."
  },
  {
   "property": "C127",
   "status": "partial",
   "theorems": [
    "Verif.Kde2D.bias_scale_fails",
    "Verif.Kde2D.band_sign_fails",
    "Verif.Kde2D.order2_fails",
    "Verif.Kde2D.max_corr_fails",
    "Verif.Kde2D.explicit_corr_fails",
    "Verif.Kde2D.zero_window_fails",
    "Verif.Kde2D.window_fails",
    "Verif.Kde2D.density_scale",
    "Verif.Kde2D.band_sign",
    "Verif.Kde2D.density_scale_partial"
   ],
   "note": "The statement is false for the code as it is; each part is refuted. What holds is C126."
  },
  {
   "property": "C128",
   "status": "proved",
   "theorems": [
    "Verif.Singles.random_spec",
    "Verif.Singles.heaviest_chosen",
    "Verif.Singles.unit_chosen",
    "Verif.Singles.both_refused",
    "Verif.Singles.chosen_probability",
    "Verif.Singles.mean_number",
    "Verif.Singles.mean_limited",
    "Verif.Singles.file_array",
    "Verif.Singles.coolWeight_spec",
    "Verif.Singles.thin_zero",
    "Verif.Singles.thin_unit",
    "Verif.Singles.cooled_row"
   ],
   "note": "Numbers drawn are uniform random variables; exact arithmetic apart from the printed digits."
  },
  {
   "property": "C129",
   "status": "partial",
   "theorems": [
    "Verif.Singles.zero_weight_fails",
    "Verif.Singles.factor_below_one_fails",
    "Verif.Singles.no_likelihood_fails",
    "Verif.Singles.thin_rows_fails",
    "Verif.Singles.thin_line_fails",
    "Verif.Singles.thin_separator_fails",
    "Verif.Singles.file_array",
    "Verif.Singles.random_partial"
   ],
   "note": "The statement is false for the code as it is; each part is refuted. What holds is C128."
  },
  {
   "property": "C130",
   "status": "proved",
   "theorems": [
    "Verif.Singles.bound_spec",
    "Verif.Singles.bound_mono",
    "Verif.Singles.parts_all",
    "Verif.Singles.part_weight",
    "Verif.Singles.splitTest_spec",
    "Verif.Singles.splitTest_zero"
   ],
   "note": "Exact arithmetic; sqrt is a parameter."
  },
  {
   "property": "C131",
   "status": "partial",
   "theorems": [
    "Verif.Singles.other_weights_fails",
    "Verif.Singles.split_heavy_fails",
    "Verif.Singles.part_weight",
    "Verif.Singles.splitTest_spec",
    "Verif.Singles.part_weight_partial"
   ],
   "note": "The statement is false for the code as it is; each part is refuted. What holds is C130."
  },
  {
   "property": "C132",
   "status": "proved",
   "theorems": [
    "Verif.Singles.pairs_ranked",
    "Verif.Singles.pairs_strongest",
    "Verif.Singles.pairs_nodup",
    "Verif.Singles.pairs_none"
   ],
   "note": "Correlations are at most one in absolute value."
  },
  {
   "property": "C133",
   "status": "partial",
   "theorems": [
    "Verif.Singles.pairs_tie_fails",
    "Verif.Singles.pairs_unset_fails",
    "Verif.Singles.pairs_ranked",
    "Verif.Singles.pairs_ranked_partial"
   ],
   "note": "The statement is false for the code as it is; each part is refuted. What holds is C132."
  },
  {
   "property": "C134",
   "status": "proved",
   "theorems": [
    "Verif.Singles.effective_order",
    "Verif.Singles.effective_scale",
    "Verif.Singles.effective_unit",
    "Verif.Singles.outliers_few"
   ],
   "note": "Before rounding to integers; at least two rows for the outliers."
  },
  {
   "property": "C135",
   "status": "proved",
   "theorems": [
    "Verif.Raftery.tran3_spec",
    "Verif.Raftery.tran2_spec",
    "Verif.Raftery.tran3_total",
    "Verif.Raftery.tran2_total",
    "Verif.Raftery.g2Markov_nonneg",
    "Verif.Raftery.g2Markov_zero",
    "Verif.Raftery.g2Indep_nonneg",
    "Verif.Raftery.g2Indep_zero",
    "Verif.Raftery.no_problem",
    "Verif.Raftery.burnSteps_spec",
    "Verif.Raftery.burnSteps_pos",
    "Verif.Raftery.chain_spec",
    "Verif.Raftery.body_ends",
    "Verif.Raftery.table_ok",
    "Verif.Raftery.indep_half",
    "Verif.Raftery.oneLow_chain",
    "Verif.Raftery.integerWeights_spec"
   ],
   "note": "Over the reals with exact logarithms. Exceptions caught by the code are modelled as such."
  },
  {
   "property": "C136",
   "status": "partial",
   "theorems": [
    "Verif.Raftery.ideal_chain_fails",
    "Verif.Raftery.alternating_fails",
    "Verif.Raftery.near_integer_fails",
    "Verif.Raftery.chain_spec",
    "Verif.Raftery.chain_partial"
   ],
   "note": "The statement is false for the code as it is; each part is refuted. What holds is C135."
  },
  {
   "property": "C137",
   "status": "proved",
   "theorems": [
    "Verif.Converge.corrN_spec",
    "Verif.Converge.corrN_single",
    "Verif.Converge.corrN_perm",
    "Verif.Converge.corrN_affine",
    "Verif.Converge.corrN_weight",
    "Verif.Converge.corr_zero",
    "Verif.Converge.corrLine_spec",
    "Verif.Converge.corrLine_ok",
    "Verif.Converge.indepThin_spec"
   ],
   "note": "Exact arithmetic; the transforms satisfy the convolution theorem."
  },
  {
   "property": "C138",
   "status": "partial",
   "theorems": [
    "Verif.Converge.stuck_chains_fails",
    "Verif.Converge.constant_fails",
    "Verif.Converge.corrLine_ok",
    "Verif.Converge.corr_zero",
    "Verif.Converge.corrLine_ok_partial"
   ],
   "note": "The statement is false for the code as it is; each part is refuted. What holds is C137."
  },
  {
   "property": "C139",
   "status": "proved",
   "theorems": [
    "Verif.Converge.meanVar_spec",
    "Verif.Converge.meanVar_none",
    "Verif.Converge.meanVar_zero",
    "Verif.Converge.total_variance",
    "Verif.Converge.meanVar_le_R"
   ],
   "note": "Real numbers."
  },
  {
   "property": "C140",
   "status": "proved",
   "theorems": [
    "Verif.Converge.corrSteps_spec",
    "Verif.Converge.stepThin_spec",
    "Verif.Converge.stepThin_set"
   ],
   "note": "Which rows thinning keeps is C13."
  },
  {
   "property": "C141",
   "status": "partial",
   "theorems": [
    "Verif.Converge.steps_twice_fails",
    "Verif.Converge.corrSteps_spec",
    "Verif.Converge.corrSteps_partial"
   ],
   "note": "The statement is false for the code as it is. What is shown is given exactly by corrSteps_spec."
  },
  {
   "property": "C142",
   "status": "proved",
   "theorems": [
    "Verif.PCA.corr_spec",
    "Verif.PCA.corr_bound",
    "Verif.PCA.eigen_spec",
    "Verif.PCA.evals_spec",
    "Verif.PCA.comps_cov",
    "Verif.PCA.comps_spec",
    "Verif.PCA.printed_spec",
    "Verif.PCA.norm_spec",
    "Verif.PCA.default_norm",
    "Verif.PCA.formula_spec",
    "Verif.PCA.cond_spec",
    "Verif.PCA.default_spec",
    "Verif.PCA.choose_spec"
   ],
   "note": "Real numbers; eig, argsort and argmax are any functions satisfying what numpy documents. Formulas before rounding of the printed numbers."
  },
  {
   "property": "C143",
   "status": "partial",
   "theorems": [
    "Verif.PCA.map_shift_fails",
    "Verif.PCA.negative_fails",
    "Verif.PCA.wide_fails",
    "Verif.PCA.zero_fails",
    "Verif.PCA.norm_missing_fails",
    "Verif.PCA.command_num_fails",
    "Verif.PCA.cond_error_fails",
    "Verif.PCA.degenerate_fails",
    "Verif.PCA.comps_spec",
    "Verif.PCA.comps_partial"
   ],
   "note": "The statement is false for the code as it is; each part is refuted. What holds is C142."
  },
  {
   "property": "C144",
   "status": "proved",
   "theorems": [
    "Verif.CommandLine.chain_alone",
    "Verif.CommandLine.ini_alone",
    "Verif.CommandLine.both_given",
    "Verif.CommandLine.txt_same",
    "Verif.CommandLine.no_args",
    "Verif.CommandLine.missing_ini",
    "Verif.CommandLine.inRoot_spec",
    "Verif.CommandLine.plotsOff_spec",
    "Verif.CommandLine.wildcard_spec"
   ],
   "note": "isfile and glob are parameters."
  },
  {
   "property": "C145",
   "status": "partial",
   "theorems": [
    "Verif.CommandLine.ini_substring_fails",
    "Verif.CommandLine.no_ini_fails",
    "Verif.CommandLine.wildcard_plots_fails",
    "Verif.CommandLine.wildcard_cobaya_fails",
    "Verif.CommandLine.wildcard_loop_fails",
    "Verif.CommandLine.wildcard_spec",
    "Verif.CommandLine.wildcard_partial"
   ],
   "note": "The statement is false for the code as it is; each part is refuted. What holds is C144."
  },
  {
   "property": "C146",
   "status": "proved",
   "theorems": [
    "Verif.CommandLine.blank_all",
    "Verif.CommandLine.parList_mem",
    "Verif.CommandLine.parList_names",
    "Verif.CommandLine.parList_order",
    "Verif.CommandLine.num_spec",
    "Verif.CommandLine.custom2D_spec",
    "Verif.CommandLine.triangle_spec",
    "Verif.CommandLine.plots2D_nodup",
    "Verif.CommandLine.param_spec",
    "Verif.CommandLine.custom_mem",
    "Verif.CommandLine.plots_order",
    "Verif.CommandLine.both_mem",
    "Verif.CommandLine.all_mem",
    "Verif.CommandLine.pairLine_spec",
    "Verif.CommandLine.names1D_spec"
   ],
   "note": "Script text: the lists of names; a reader of python string literals is the specification."
  },
  {
   "property": "C147",
   "status": "partial",
   "theorems": [
    "Verif.CommandLine.twice_fails",
    "Verif.CommandLine.missing_silent_fails",
    "Verif.CommandLine.joined_fails",
    "Verif.CommandLine.order_fails",
    "Verif.CommandLine.alias_fails",
    "Verif.CommandLine.quote_fails",
    "Verif.CommandLine.custom_mem",
    "Verif.CommandLine.custom_mem_partial"
   ],
   "note": "The statement is false for the code as it is; each part is refuted. What holds is C146."
  },
  {
   "property": "C148",
   "status": "proved",
   "theorems": [
    "Verif.Cobaya.sampled_iff",
    "Verif.Cobaya.derived_iff",
    "Verif.Cobaya.number_fixed",
    "Verif.Cobaya.range_pair",
    "Verif.Cobaya.range_minmax",
    "Verif.Cobaya.range_min",
    "Verif.Cobaya.range_max",
    "Verif.Cobaya.range_dist",
    "Verif.Cobaya.range_fixed",
    "Verif.Cobaya.range_derived",
    "Verif.Cobaya.range_bad",
    "Verif.Cobaya.range_keeps",
    "Verif.Cobaya.params_plain",
    "Verif.Cobaya.extras_mem",
    "Verif.Cobaya.params_post",
    "Verif.Cobaya.names_spec",
    "Verif.Cobaya.params_wf",
    "Verif.Cobaya.names_nodup",
    "Verif.Cobaya.bounds_spec",
    "Verif.Cobaya.bounds_fixed",
    "Verif.Cobaya.params_likes",
    "Verif.Cobaya.paramOf_spec"
   ],
   "note": "The yaml reader is not modelled: the dictionary it gives is the input. Intervals of scipy's distributions are a parameter."
  },
  {
   "property": "C149",
   "status": "partial",
   "theorems": [
    "Verif.Cobaya.range_twice_fails",
    "Verif.Cobaya.standard_fails",
    "Verif.Cobaya.unsaved_fails",
    "Verif.Cobaya.text_fails",
    "Verif.Cobaya.add_fixed_fails",
    "Verif.Cobaya.remove_text_fails",
    "Verif.Cobaya.both_kinds_fails",
    "Verif.Cobaya.minimize_fails",
    "Verif.Cobaya.evaluate_fails",
    "Verif.Cobaya.names_nodup",
    "Verif.Cobaya.names_nodup_partial"
   ],
   "note": "The statement is false for the code as it is; each part is refuted. What holds is C148."
  },
  {
   "property": "C150",
   "status": "proved",
   "theorems": [
    "Verif.Cobaya.rows_order",
    "Verif.Cobaya.props_win",
    "Verif.Cobaya.sampler_given",
    "Verif.Cobaya.sampler_types",
    "Verif.Cobaya.paramsFile_spec"
   ],
   "note": ""
  },
  {
   "property": "C151",
   "status": "partial",
   "theorems": [
    "Verif.Cobaya.skip_twice_fails",
    "Verif.Cobaya.nested_burn_fails",
    "Verif.Cobaya.nested_file_fails",
    "Verif.Cobaya.memory_burn_fails",
    "Verif.Cobaya.burnRemoved_zero",
    "Verif.Cobaya.props_win",
    "Verif.Cobaya.props_win_partial"
   ],
   "note": "The statement is false for the code as it is; each part is refuted. With burn_removed in the properties file nothing is removed (props_win)."
  },
  {
   "property": "C152",
   "status": "proved",
   "theorems": [
    "Verif.GaussMix.make_spec",
    "Verif.GaussMix.make_errors",
    "Verif.GaussMix.make_proper",
    "Verif.GaussMix.density_eq",
    "Verif.GaussMix.pdfRows_spec",
    "Verif.GaussMix.pdf2_spec",
    "Verif.GaussMix.pdf_pos",
    "Verif.GaussMix.pdf_integral",
    "Verif.GaussMix.marged_spec",
    "Verif.GaussMix.marginal_sum",
    "Verif.GaussMix.marginalized_spec",
    "Verif.GaussMix.resolve_spec",
    "Verif.GaussMix.checkNoLimits_spec",
    "Verif.GaussMix.pick_spec",
    "Verif.GaussMix.totalMean_spec",
    "Verif.GaussMix.cond_spec",
    "Verif.GaussMix.conditional_single",
    "Verif.GaussMix.conditional_comps",
    "Verif.GaussMix.gaussianND_inv",
    "Verif.GaussMix.make2DCov_posDef",
    "Verif.GaussMix.make2DCov_spec",
    "Verif.GaussMix.mixture1D_spec",
    "Verif.GaussMix.schur_spec",
    "Verif.GaussMix.make_names",
    "Verif.GaussMix.defaultNames_spec"
   ],
   "note": "Real numbers; integrals are those of Mathlib."
  },
  {
   "property": "C153",
   "status": "proved",
   "theorems": [
    "Verif.GaussMix.autoRange_spec",
    "Verif.GaussMix.updateLimits_spec",
    "Verif.GaussMix.getUpper_spec",
    "Verif.GaussMix.density1D_spec",
    "Verif.GaussMix.cut_spec",
    "Verif.GaussMix.sim_spec",
    "Verif.GaussMix.block_spec",
    "Verif.GaussMix.simLoop_ends",
    "Verif.GaussMix.block_rate",
    "Verif.GaussMix.limOf_spec",
    "Verif.GaussMix.simLoop_rounds"
   ],
   "note": "Random numbers are any sequence."
  },
  {
   "property": "C154",
   "status": "partial",
   "theorems": [
    "Verif.GaussMix.totalCov_fails",
    "Verif.GaussMix.totalCov_short_fails",
    "Verif.GaussMix.totalCov_partial",
    "Verif.GaussMix.cond_weights_fails",
    "Verif.GaussMix.cond_corr_fails",
    "Verif.GaussMix.getLower_fails",
    "Verif.GaussMix.density1D_flag_fails",
    "Verif.GaussMix.conditional_comps",
    "Verif.GaussMix.conditional_weights_partial",
    "Verif.GaussMix.getLower_upper"
   ],
   "note": "The statement is false for the code as it is; each part is refuted. What holds is C152 and C153."
  },
  {
   "property": "C155",
   "status": "proved",
   "theorems": [
    "Verif.Ticks.tickValues_spec",
    "Verif.Ticks.spaced_spec",
    "Verif.Ticks.ticksOf_spec",
    "Verif.Ticks.geN_spec",
    "Verif.Ticks.leN_spec",
    "Verif.Ticks.tol_le",
    "Verif.Ticks.start_multiple",
    "Verif.Ticks.start_center",
    "Verif.Ticks.roomFor_pos",
    "Verif.Ticks.firstLoop_ends",
    "Verif.Ticks.secondLoop_spec",
    "Verif.Ticks.anyTwo_spec",
    "Verif.Ticks.staircase_mem",
    "Verif.Ticks.staircase_increasing"
   ],
   "note": "Exact arithmetic; scale_range, the formatter and font sizes are parameters."
  },
  {
   "property": "C156",
   "status": "partial",
   "theorems": [
    "Verif.Ticks.shift_fails",
    "Verif.Ticks.shift_adds_fails",
    "Verif.Ticks.last_resort_fails",
    "Verif.Ticks.zero_bonus_fails",
    "Verif.Ticks.tickValues_spec",
    "Verif.Ticks.tickValues_partial"
   ],
   "note": "The statement is false for the code as it is; each part is refuted. What holds is C155."
  },
  {
   "property": "C157",
   "status": "proved",
   "theorems": [
    "Verif.SN.like1_spec",
    "Verif.SN.like2_pos",
    "Verif.SN.like2_spec",
    "Verif.SN.split_spec",
    "Verif.SN.split_isSome",
    "Verif.SN.likeOf_spec",
    "Verif.SN.marg_shift",
    "Verif.SN.likeOf_shift",
    "Verif.SN.covSum_noise",
    "Verif.SN.covSum_quad",
    "Verif.SN.diagVar_spec",
    "Verif.SN.covMat_posDef",
    "Verif.SN.covMat_plain",
    "Verif.SN.covMat_plain_posDef",
    "Verif.SN.alphabeta_spec",
    "Verif.SN.invCov_new",
    "Verif.SN.invCov_ok",
    "Verif.SN.calls_ok",
    "Verif.SN.alphaBetaLike_spec",
    "Verif.SN.logLike_spec",
    "Verif.SN.logLike_plain",
    "Verif.SN.logLike_scale",
    "Verif.SN.gridPoints_spec",
    "Verif.SN.combine_spec",
    "Verif.SN.least_spec",
    "Verif.SN.precompute_spec",
    "Verif.SN.gridLikes_spec",
    "Verif.SN.margeLike_spec",
    "Verif.SN.readData_spec",
    "Verif.SN.readData_noHeader",
    "Verif.SN.readCov_spec",
    "Verif.SN.header_names",
    "Verif.SN.fresh_defaults",
    "Verif.SN.values_spec",
    "Verif.SN.start_new"
   ],
   "note": "Real numbers; the settings file is that of the settings model; the circle of grid points and default options are as in the code."
  },
  {
   "property": "C158",
   "status": "partial",
   "theorems": [
    "Verif.SN.blankLines_fails",
    "Verif.SN.commentResets_fails",
    "Verif.SN.nameOverwritten_fails",
    "Verif.SN.cachedInverse_fails",
    "Verif.SN.failedInverse_fails",
    "Verif.SN.margeAttribute_fails",
    "Verif.SN.crossCovariance_fails",
    "Verif.SN.calls_ok",
    "Verif.SN.calls_ok_partial"
   ],
   "note": "The statement is false for the code as it is; each part is refuted. What holds is C157, for the inverse calls_ok."
  },
  {
   "property": "C159",
   "status": "proved",
   "theorems": [
    "Verif.DES.rangesOf_spec",
    "Verif.DES.load_eq",
    "Verif.DES.load_spec",
    "Verif.DES.selected_iff",
    "Verif.DES.makeVector_ok",
    "Verif.DES.dataVector_spec",
    "Verif.DES.chiSq_quad",
    "Verif.DES.chiSq_self",
    "Verif.DES.covSub_posDef",
    "Verif.DES.chiSq_pos",
    "Verif.DES.chiSq_less",
    "Verif.DES.errorsOf_spec",
    "Verif.DES.theoryVector_spec",
    "Verif.DES.groups_spec",
    "Verif.DES.transform_spec",
    "Verif.DES.centre_mean",
    "Verif.DES.dchis_sum",
    "Verif.DES.lensW_spec",
    "Verif.DES.itemOf_zero"
   ],
   "note": "Data sets in text form; power spectra, splines and Bessel functions are parameters."
  },
  {
   "property": "C160",
   "status": "partial",
   "theorems": [
    "Verif.DES.typeOrder_fails",
    "Verif.DES.onlyGalaxies_fails",
    "Verif.DES.ximAlone_fails",
    "Verif.DES.ximPairs_fails",
    "Verif.DES.lastStep_fails",
    "Verif.DES.duplicate_fails",
    "Verif.DES.theoryVector_spec",
    "Verif.DES.theoryVector_partial"
   ],
   "note": "The statement is false for the code as it is; each part is refuted. What holds is C159."
  },
  {
   "property": "C161",
   "status": "proved",
   "theorems": [
    "Verif.Plik.translate_spec",
    "Verif.Plik.nuisanceVector_ok",
    "Verif.Plik.nuisanceVector_spec",
    "Verif.Plik.namesFile_spec",
    "Verif.Plik.clsOf_spec",
    "Verif.Plik.clikOrdering_spec",
    "Verif.Plik.cmbRq_spec",
    "Verif.Plik.cmbRq_symm",
    "Verif.Plik.nuisanceRq_spec",
    "Verif.Plik.binned_short",
    "Verif.Plik.binned_between",
    "Verif.Plik.replaceAll_char",
    "Verif.Plik.replaceAll_first"
   ],
   "note": "Contents of the clik files are parameters."
  },
  {
   "property": "C162",
   "status": "proved",
   "theorems": [
    "Verif.Plik.jtS_eq",
    "Verif.Plik.jtSJ_eq",
    "Verif.Plik.jtSJ_normal",
    "Verif.Plik.chiSq_split",
    "Verif.Plik.rVec_best",
    "Verif.Plik.rVec_exact",
    "Verif.Plik.rVec_cov",
    "Verif.Plik.delta_spec",
    "Verif.Plik.coadd_best",
    "Verif.Plik.spreadGood_spec",
    "Verif.Plik.goodRows_first",
    "Verif.Plik.scaleLoop_spec",
    "Verif.Plik.ttOf_spec",
    "Verif.Plik.calib_maps",
    "Verif.Plik.model_scale",
    "Verif.Plik.deltaVec_zero",
    "Verif.Plik.deltaVec_add",
    "Verif.Plik.ttOf_single"
   ],
   "note": "Real numbers; the solution of linear equations is the inverse matrix times the right side."
  },
  {
   "property": "C163",
   "status": "partial",
   "theorems": [
    "Verif.Plik.setup_fails",
    "Verif.Plik.ttLength_fails",
    "Verif.Plik.wideBins_fails",
    "Verif.Plik.firstBlock_fails",
    "Verif.Plik.candidate_fails",
    "Verif.Plik.fewNames_fails",
    "Verif.Plik.goodRows_first",
    "Verif.Plik.ttOf_spec",
    "Verif.Plik.goodRows_first_partial"
   ],
   "note": "The statement is false for the code as it is; each part is refuted. goodRows_first and ttOf_spec give the cases that hold."
  },
  {
   "property": "C164",
   "status": "proved",
   "theorems": [
    "Verif.CamSpec.itemElls_spec",
    "Verif.CamSpec.itemsElls_spec",
    "Verif.CamSpec.load_spec",
    "Verif.CamSpec.usedEntries_iff",
    "Verif.CamSpec.readNormalized_spec",
    "Verif.CamSpec.deltaVector_spec",
    "Verif.CamSpec.cals_spec",
    "Verif.CamSpec.diffPos_spec",
    "Verif.CamSpec.diffCov_spec",
    "Verif.CamSpec.diffAt_spec",
    "Verif.CamSpec.delta_zero",
    "Verif.CamSpec.cals_planck",
    "Verif.CamSpec.rangeToElls_blank",
    "Verif.CamSpec.rangeToElls_spec"
   ],
   "note": "Spectra, covariance and templates are parameters; deltaVector_spec is for up to six spectra, as the code has."
  },
  {
   "property": "C165",
   "status": "proved",
   "theorems": [
    "Verif.CamSpec.contiguousOne_full",
    "Verif.CamSpec.pcov_spec",
    "Verif.CamSpec.dL_spec",
    "Verif.CamSpec.coadd_rVec",
    "Verif.CamSpec.coadd_best",
    "Verif.CamSpec.coadd_exact",
    "Verif.CamSpec.coadd_cov",
    "Verif.CamSpec.weights_sum",
    "Verif.CamSpec.limits_spec"
   ],
   "note": "Real numbers; the solution of linear equations is the inverse matrix times the right side."
  },
  {
   "property": "C166",
   "status": "partial",
   "theorems": [
    "Verif.CamSpec.single_fails",
    "Verif.CamSpec.gaps_fails",
    "Verif.CamSpec.allFour_fails",
    "Verif.CamSpec.setup_fails",
    "Verif.CamSpec.lnrat_fails",
    "Verif.CamSpec.seventh_fails",
    "Verif.CamSpec.byName_fails",
    "Verif.CamSpec.cache_fails",
    "Verif.CamSpec.weights_fails",
    "Verif.CamSpec.diffGaps_fails",
    "Verif.CamSpec.pivot_fails",
    "Verif.CamSpec.polarised_fails",
    "Verif.CamSpec.contiguousOne_spec",
    "Verif.CamSpec.lnrat_zero",
    "Verif.Smooth.short_fails",
    "Verif.CamSpec.contiguousOne_partial"
   ],
   "note": "The statement is false for the code as it is; each part is refuted. What holds is C164, C165 and C167."
  },
  {
   "property": "C167",
   "status": "proved",
   "theorems": [
    "Verif.Smooth.smooth_eq",
    "Verif.Smooth.smooth_const",
    "Verif.Smooth.smooth_between",
    "Verif.Smooth.conv_one_pos",
    "Verif.Smooth.smoothedCov_eq",
    "Verif.Smooth.smoothedCov_posSemidef",
    "Verif.Smooth.sameLength_long",
    "Verif.Smooth.conv_poly",
    "Verif.Smooth.tap_support"
   ],
   "note": "The window is any sequence of numbers, the position of the result in the full convolution any number."
  },
  {
   "property": "C168",
   "status": "proved",
   "theorems": [
    "Verif.PlikPost.search_entry",
    "Verif.PlikPost.parseMin_spec",
    "Verif.PlikPost.newNames_spec",
    "Verif.PlikPost.newRow_spec",
    "Verif.PlikPost.newRow_old",
    "Verif.PlikPost.paramOf_chain",
    "Verif.PlikPost.paramOf_fixed",
    "Verif.PlikPost.fixedVals_spec",
    "Verif.PlikPost.total_spec",
    "Verif.PlikPost.newRows_spec",
    "Verif.PlikPost.renumber_spec",
    "Verif.PlikPost.renumbered_entry",
    "Verif.PlikPost.newMinimum_spec",
    "Verif.PlikPost.newFiles_spec",
    "Verif.PlikPost.fgArr_spec",
    "Verif.PlikPost.fgArr_three",
    "Verif.PlikPost.columns_spec",
    "Verif.PlikPost.chooseData_spec",
    "Verif.PlikPost.runJob_twice"
   ],
   "note": "The components of the likelihood library are functions of their parameters; numbers are exact, printing with seven digits is not modelled."
  },
  {
   "property": "C169",
   "status": "partial",
   "theorems": [
    "Verif.PlikPost.noChi2_fails",
    "Verif.PlikPost.blankLine_fails",
    "Verif.PlikPost.oneRow_fails",
    "Verif.PlikPost.noLimits_fails",
    "Verif.PlikPost.order_fails",
    "Verif.PlikPost.interrupted_fails",
    "Verif.PlikPost.tag_fails",
    "Verif.PlikPost.lastLine_fails",
    "Verif.PlikPost.newNames_spec",
    "Verif.PlikPost.newRow_old",
    "Verif.PlikPost.newNames_partial"
   ],
   "note": "The statement is false for the code as it is; each part is refuted. What holds is C168."
  },
  {
   "property": "C170",
   "status": "proved",
   "theorems": [
    "Verif.Analyser.samples_kept",
    "Verif.Analyser.removed_reloads",
    "Verif.Analyser.cached_hit",
    "Verif.Analyser.other_kept",
    "Verif.Analyser.cached_ok",
    "Verif.Analyser.search_first",
    "Verif.Analyser.not_found",
    "Verif.Analyser.request_found"
   ],
   "note": "Loading itself is a given function that may depend on the time of the call."
  },
  {
   "property": "C171",
   "status": "partial",
   "theorems": [
    "Verif.Analyser.density_of_samples_partial",
    "Verif.Analyser.grid_of_samples_partial",
    "Verif.Analyser.single_of_samples_partial",
    "Verif.Analyser.normalized_curve_partial",
    "Verif.Analyser.curve_partial",
    "Verif.Analyser.add_root_partial",
    "Verif.Analyser.stale_density_fails",
    "Verif.Analyser.normalized_stays_fails",
    "Verif.Analyser.add_root_same_name_fails",
    "Verif.Analyser.settings_ignored_fails",
    "Verif.Analyser.norm_setting_fails"
   ],
   "note": "Holds as long as nothing is reloaded and no curve is normalised in between (the _partial theorems); false in general for the code as it is."
  },
  {
   "property": "C172",
   "status": "partial",
   "theorems": [
    "Verif.Analyser.search_settings",
    "Verif.Analyser.settings_partial",
    "Verif.Analyser.reset_ini",
    "Verif.Analyser.reset_partial",
    "Verif.Analyser.own_label_partial",
    "Verif.Analyser.other_directory_fails",
    "Verif.Analyser.reset_keeps_fails",
    "Verif.Analyser.caller_ini_fails",
    "Verif.Analyser.labels_stay_fails",
    "Verif.Analyser.labels_given",
    "Verif.ParamNames.labels_set"
   ],
   "note": "Holds when the locations searched before have no settings file, for the first reset and without label files; false in general for the code as it is."
  },
  {
   "property": "C173",
   "status": "proved",
   "theorems": [
    "Verif.PlotLayout.cols_spec",
    "Verif.PlotLayout.cols_pos",
    "Verif.PlotLayout.grid_fits",
    "Verif.PlotLayout.place_ok",
    "Verif.PlotLayout.axes_found",
    "Verif.PlotLayout.numbered_found",
    "Verif.PlotLayout.triangle_cells",
    "Verif.PlotLayout.triangle_places_nodup",
    "Verif.PlotLayout.triangle_params_nodup",
    "Verif.PlotLayout.triangle_found",
    "Verif.PlotLayout.upper_cells",
    "Verif.PlotLayout.rectangle_cells",
    "Verif.PlotLayout.rectangle_found",
    "Verif.PlotLayout.unordered_found"
   ],
   "note": "The square root is exact; parameters are names."
  },
  {
   "property": "C174",
   "status": "proved",
   "theorems": [
    "Verif.PlotLayout.joinMax_spec",
    "Verif.PlotLayout.joinMin_spec",
    "Verif.PlotLayout.checkRange_within",
    "Verif.PlotLayout.paramBounds_within",
    "Verif.PlotLayout.hull_spec",
    "Verif.PlotLayout.plotRange_spec",
    "Verif.PlotLayout.rectLimits_spec",
    "Verif.PlotLayout.proxies_own",
    "Verif.PlotLayout.pick_spec",
    "Verif.PlotLayout.getMarker_spec"
   ],
   "note": "Numbers are from any linear order; the drawing itself is not modelled."
  },
  {
   "property": "C175",
   "status": "partial",
   "theorems": [
    "Verif.PlotLayout.shown_partial",
    "Verif.PlotLayout.proxies_partial",
    "Verif.PlotLayout.rectNcol_partial",
    "Verif.PlotLayout.single_contours_partial",
    "Verif.PlotLayout.no_plots_fails",
    "Verif.PlotLayout.single_plot_fails",
    "Verif.PlotLayout.other_prior_fails",
    "Verif.PlotLayout.proxy_missing_fails",
    "Verif.PlotLayout.rect_labels_fails"
   ],
   "note": "True for common priors, chains drawn in the first subplot, common roots (the _partial theorems); false in general for the code as it is."
  },
  {
   "property": "C176",
   "status": "proved",
   "theorems": [
    "Verif.PlotArgs.lineStyles_spec",
    "Verif.PlotArgs.defaultLs_split",
    "Verif.PlotArgs.defaultLs_ok",
    "Verif.PlotArgs.unset_kept",
    "Verif.PlotArgs.other_line_kept",
    "Verif.PlotArgs.overlay_spec",
    "Verif.PlotArgs.makeLineArgs_spec",
    "Verif.PlotArgs.fills_bool",
    "Verif.PlotArgs.fills_none",
    "Verif.PlotArgs.fills_list",
    "Verif.PlotArgs.entries_mem",
    "Verif.PlotArgs.outsideLoc_spec",
    "Verif.PlotArgs.defaultLs_solid",
    "Verif.PlotArgs.outsideLoc_centre",
    "Verif.PlotArgs.makeLineArgs_tuple",
    "Verif.PlotArgs.legend_missing",
    "Verif.PlotArgs.fontsize_direct",
    "Verif.PlotArgs.fontsize_linear"
   ],
   "note": "Values are strings; which strings are colours is a parameter."
  },
  {
   "property": "C177",
   "status": "partial",
   "theorems": [
    "Verif.PlotArgs.independent_partial",
    "Verif.PlotArgs.caller_partial",
    "Verif.PlotArgs.entries_reversed_partial",
    "Verif.PlotArgs.legend_lines_partial",
    "Verif.PlotArgs.fontsize_partial",
    "Verif.PlotArgs.linewidth_partial",
    "Verif.PlotArgs.one_dict_fails",
    "Verif.PlotArgs.kwargs_stay_fails",
    "Verif.PlotArgs.caller_list_fails",
    "Verif.PlotArgs.tuple_fails",
    "Verif.PlotArgs.short_filled_fails",
    "Verif.PlotArgs.reverse_fails",
    "Verif.PlotArgs.offset_fails",
    "Verif.PlotArgs.factor_fails",
    "Verif.PlotArgs.small_font_fails",
    "Verif.PlotArgs.thin_line_fails"
   ],
   "note": "True without plot arguments in the settings, for arguments not in lists, as many labels as lines, default scaling (the _partial theorems); false in general for the code as it is."
  },
  {
   "property": "C178",
   "status": "proved",
   "theorems": [
    "Verif.PlotStyle.convertCamel_snake",
    "Verif.PlotStyle.convertCamel_camel",
    "Verif.PlotStyle.set_get",
    "Verif.PlotStyle.set_old",
    "Verif.PlotStyle.unknown_refused",
    "Verif.PlotStyle.removed_ignored",
    "Verif.PlotStyle.setActive_good",
    "Verif.PlotStyle.step_good",
    "Verif.PlotStyle.rc_of_style",
    "Verif.PlotStyle.back_to_default",
    "Verif.PlotStyle.unknown_style",
    "Verif.PlotStyle.documented_settings"
   ],
   "note": "Attributes of instance and classes are one table; rcParams is a dictionary of strings."
  },
  {
   "property": "C179",
   "status": "partial",
   "theorems": [
    "Verif.PlotStyle.old_names_partial",
    "Verif.PlotStyle.add_activates_partial",
    "Verif.PlotStyle.font_size_fails",
    "Verif.PlotStyle.meanlikes_fails",
    "Verif.PlotStyle.subclass_fails",
    "Verif.PlotStyle.redefine_fails",
    "Verif.PlotStyle.plotter_style_fails",
    "Verif.PlotStyle.user_rc_fails"
   ],
   "note": "True for all old names but one, and for styles that are not active (the _partial theorems); false in general for the code as it is."
  },
  {
   "property": "C180",
   "status": "proved",
   "theorems": [
    "Verif.Rename.makeMapper_spec",
    "Verif.Rename.readMap_spec",
    "Verif.Rename.readMap_blank",
    "Verif.Rename.renameNames_spec",
    "Verif.Rename.renameNames_same",
    "Verif.Rename.rename_nodup",
    "Verif.Rename.rename_back",
    "Verif.Rename.resplit_flatten",
    "Verif.Rename.minLine_spec",
    "Verif.Rename.dry_run",
    "Verif.Rename.only_names_files",
    "Verif.Rename.runItem_file",
    "Verif.Rename.runItem_ok",
    "Verif.Rename.minimum_spec",
    "Verif.Rename.minimum_end",
    "Verif.Rename.minLine_stop",
    "Verif.Rename.minStep_spec"
   ],
   "note": "Files are strings in a dictionary; the choice of chains of the grid is that of the batch module."
  },
  {
   "property": "C181",
   "status": "partial",
   "theorems": [
    "Verif.Rename.pairs_even",
    "Verif.Rename.minLine_room_partial",
    "Verif.Rename.grid_renamed_partial",
    "Verif.Rename.minimum_write_left",
    "Verif.Rename.odd_pairs_fails",
    "Verif.Rename.clash_fails",
    "Verif.Rename.run_together_fails",
    "Verif.Rename.no_label_fails",
    "Verif.Rename.label_by_old_fails",
    "Verif.Rename.minimum_write_fails"
   ],
   "note": "True for short names and grids without best fit files to change (the _partial theorems); false in general for the code as it is."
  },
  {
   "property": "C182",
   "status": "proved",
   "theorems": [
    "Verif.SampleDict.getParams_spec",
    "Verif.SampleDict.sampleDict_spec",
    "Verif.SampleDict.sampleDictMC_spec",
    "Verif.SampleDict.argmin_spec",
    "Verif.SampleDict.best_sample",
    "Verif.SampleDict.bestDict_spec",
    "Verif.SampleDict.best_file",
    "Verif.SampleDict.combined_mass",
    "Verif.SampleDict.combined_mean",
    "Verif.SampleDict.saveProps_spec",
    "Verif.SampleDict.saveProps_none",
    "Verif.SampleDict.rootFileName_spec",
    "Verif.SampleDict.paramVec_reserved",
    "Verif.SampleDict.paramVec_last",
    "Verif.SampleDict.saveProps_written"
   ],
   "note": "Numbers are from an ordered field; values of properties are strings; getParams for names none of which uses value below another."
  },
  {
   "property": "C183",
   "status": "partial",
   "theorems": [
    "Verif.SampleDict.combined_partial",
    "Verif.SampleDict.value_fails",
    "Verif.SampleDict.best_wanted_fails",
    "Verif.SampleDict.no_loglike_fails",
    "Verif.SampleDict.no_root_fails",
    "Verif.SampleDict.dotted_fails",
    "Verif.SampleDict.stale_props_fails",
    "Verif.SampleDict.other_text_fails"
   ],
   "note": "Joining is true for names without dots (combined_partial); the rest is false in general for the code as it is."
  },
  {
   "property": "C184",
   "status": "proved",
   "theorems": [
    "Verif.TexTable.limTex_tag",
    "Verif.TexTable.limit_value",
    "Verif.TexTable.numFmt_ok",
    "Verif.TexTable.getLatex_spec",
    "Verif.TexTable.inlineLatex_spec",
    "Verif.TexTable.styles_plain",
    "Verif.TexTable.colSpec_spec",
    "Verif.TexTable.bodyLines_spec",
    "Verif.TexTable.document_spec"
   ],
   "note": "Printing of numbers is that of the NumFmt module; decimals of floats, square roots and the texts with one decimal are given functions."
  },
  {
   "property": "C185",
   "status": "partial",
   "theorems": [
    "Verif.TexTable.texValues_cell_partial",
    "Verif.TexTable.limitText_partial",
    "Verif.TexTable.titles_partial",
    "Verif.TexTable.resultTable_partial",
    "Verif.TexTable.raw_sigma_fails",
    "Verif.TexTable.comma_fails",
    "Verif.TexTable.label_fails",
    "Verif.TexTable.mirror_fails",
    "Verif.TexTable.title_amp_fails",
    "Verif.TexTable.one_result_fails",
    "Verif.TexTable.cline_fails"
   ],
   "note": "True without plain shifts, for whole percentages, titles without ampersands, and values for all parameters (the _partial theorems); false in general for the code as it is."
  },
  {
   "property": "C186",
   "status": "proved",
   "theorems": [
    "Verif.CMBFiles.columns_spec",
    "Verif.CMBFiles.columns_unknown",
    "Verif.CMBFiles.load_spec",
    "Verif.CMBFiles.add_spec",
    "Verif.CMBFiles.theory_from_file",
    "Verif.CMBFiles.load_gap",
    "Verif.CMBFiles.rescale_spec",
    "Verif.CMBFiles.windows_spec",
    "Verif.CMBFiles.windows_orders",
    "Verif.CMBFiles.bins_read",
    "Verif.CMBFiles.calibration_spec",
    "Verif.CMBFiles.prior_nonneg",
    "Verif.CMBFiles.diagSigma_spec",
    "Verif.CMBFiles.bandColumn_spec"
   ],
   "note": "Files are rows of numbers as loadtxt gives them; multipoles are not negative; spectra from camb are left out."
  },
  {
   "property": "C187",
   "status": "partial",
   "theorems": [
    "Verif.CMBFiles.calibration_default_partial",
    "Verif.CMBFiles.never_draws",
    "Verif.CMBFiles.row_order_fails",
    "Verif.CMBFiles.add_to_empty_fails",
    "Verif.CMBFiles.reload_fails",
    "Verif.CMBFiles.short_theory_fails",
    "Verif.CMBFiles.rescale_few_fails",
    "Verif.CMBFiles.rescale_more_fails",
    "Verif.CMBFiles.rescale_fails",
    "Verif.CMBFiles.warning_file_fails",
    "Verif.CMBFiles.window_width_fails",
    "Verif.CMBFiles.window_twice_fails",
    "Verif.CMBFiles.write_windows_fails",
    "Verif.CMBFiles.write_directory_fails",
    "Verif.CMBFiles.write_data_fails",
    "Verif.CMBFiles.calibration_default_fails",
    "Verif.CMBFiles.draws_theory_fails",
    "Verif.CMBFiles.draws_column_fails",
    "Verif.CMBFiles.draws_several_fails",
    "Verif.CMBFiles.no_writesWindows",
    "Verif.CMBFiles.no_writesData"
   ],
   "note": "Without a prior a missing calibration is calibration one (calibration_default_partial), and C186 has the cases that hold; the rest is false for the code as it is."
  },
  {
   "property": "C188",
   "status": "proved",
   "theorems": [
    "Verif.Bandwidth.lastNorm_ok",
    "Verif.Bandwidth.fixedPoint_ok",
    "Verif.Bandwidth.fixedPoint_flat",
    "Verif.Bandwidth.root_optimal",
    "Verif.Bandwidth.solve_optimal",
    "Verif.Bandwidth.solve_choice",
    "Verif.Bandwidth.binned_scale",
    "Verif.Bandwidth.kdeBin_affine",
    "Verif.Bandwidth.bandwidth_units",
    "Verif.Bandwidth.auto1D_found",
    "Verif.Bandwidth.auto1D_failed",
    "Verif.Bandwidth.ordered_ge",
    "Verif.Bandwidth.auto1D_pos",
    "Verif.Bandwidth.moment_rec",
    "Verif.Bandwidth.moment_sign",
    "Verif.Bandwidth.fixedPoint2D_spec",
    "Verif.Bandwidth.tStar_spec",
    "Verif.Bandwidth.diag_optimal",
    "Verif.Bandwidth.widths_transpose",
    "Verif.Bandwidth.getH_best",
    "Verif.Bandwidth.kernel_exists"
   ],
   "note": "Real numbers instead of floats; root finders, minimisers and the cosine transform are parameters; the two odd moments are given."
  },
  {
   "property": "C189",
   "status": "partial",
   "theorems": [
    "Verif.Bandwidth.fallback_units_partial",
    "Verif.Bandwidth.solve_optimal",
    "Verif.Bandwidth.unconverged_fails",
    "Verif.Bandwidth.fallback_units_fails",
    "Verif.Bandwidth.setting_fails"
   ],
   "note": "True for solvers that converge (solve_optimal) and parameters with limits at both ends (fallback_units_partial); false in general for the code as it is."
  },
  {
   "property": "C190",
   "status": "proved",
   "theorems": [
    "Verif.Cobaya.memory_consistent",
    "Verif.Cobaya.memory_refused",
    "Verif.Cobaya.memory_params",
    "Verif.Cobaya.memory_values",
    "Verif.Cobaya.memory_bounds",
    "Verif.Cobaya.memory_as_files",
    "Verif.Cobaya.memory_names_as_files",
    "Verif.Cobaya.memory_options"
   ],
   "note": "Collections are tables with distinct column names; names without blanks, stars and question marks; aliases of different parameters are different (the other case is in C191)."
  },
  {
   "property": "C191",
   "status": "partial",
   "theorems": [
    "Verif.Cobaya.memory_as_files",
    "Verif.Cobaya.memory_names_as_files",
    "Verif.Cobaya.memory_params",
    "Verif.Cobaya.null_fails",
    "Verif.Cobaya.function_fails",
    "Verif.Cobaya.settings_rows_fails",
    "Verif.Cobaya.common_alias_fails",
    "Verif.Cobaya.memory_as_files_partial"
   ],
   "note": "Where the call succeeds it agrees with the files, and separate aliases stay separate (C190); false in general for the code as it is."
  },
  {
   "property": "C192",
   "status": "proved",
   "theorems": [
    "Verif.GridScripts.params_spec",
    "Verif.GridScripts.getdist_sees",
    "Verif.GridScripts.plots_spec",
    "Verif.GridScripts.base_spec",
    "Verif.GridScripts.wanted_spec",
    "Verif.GridScripts.pool_spec",
    "Verif.GridScripts.pool_ends",
    "Verif.GridScripts.copies_spec",
    "Verif.GridScripts.replacements_spec",
    "Verif.GridScripts.replacements_odd",
    "Verif.GridScripts.camb_spec",
    "Verif.GridScripts.bestFitParams_spec"
   ],
   "note": "Names and values of settings fit on one line and have no references to the environment; names and extensions of copied files have no wildcards."
  },
  {
   "property": "C193",
   "status": "partial",
   "theorems": [
    "Verif.GridScripts.plot_data_partial",
    "Verif.GridScripts.pool_ends",
    "Verif.GridScripts.kept_partial",
    "Verif.GridScripts.camb_partial",
    "Verif.GridScripts.plot_data_fails",
    "Verif.GridScripts.procs_zero_fails",
    "Verif.GridScripts.relative_base_fails",
    "Verif.GridScripts.normalized_fails",
    "Verif.GridScripts.camb_fails"
   ],
   "note": "True with a directory or without use_plot_data, at least one process, own names, and best fits with all three parameters; false in general for the code as it is."
  },
  {
   "property": "C194",
   "status": "proved",
   "theorems": [
    "Verif.Settings.intOf_intText",
    "Verif.Settings.unset",
    "Verif.Settings.text_read",
    "Verif.Settings.value_read",
    "Verif.Settings.list_read",
    "Verif.Settings.list_absent",
    "Verif.Settings.indexed_inj",
    "Verif.Settings.array_read",
    "Verif.Settings.attr_roundtrip",
    "Verif.Settings.asType_type",
    "Verif.Settings.init_attrs",
    "Verif.Settings.update_twice",
    "Verif.Settings.burn_spec",
    "Verif.Settings.contours_text",
    "Verif.Settings.contours_numbered",
    "Verif.Settings.thresholds"
   ],
   "note": "Floats are rational numbers with any printing that can be read back; names and values fit on one line."
  },
  {
   "property": "C195",
   "status": "partial",
   "theorems": [
    "Verif.Settings.boolList_partial",
    "Verif.Settings.caller_partial",
    "Verif.Settings.attr_roundtrip",
    "Verif.Settings.value_read",
    "Verif.Settings.boolList_fails",
    "Verif.Settings.saved_list_fails",
    "Verif.Settings.array_setting_fails",
    "Verif.Settings.effective_fails",
    "Verif.Settings.effective_never",
    "Verif.Settings.caller_fails",
    "Verif.Settings.num_contours_fails"
   ],
   "note": "True for lists of T, single values, lists in place of arrays, and without the argument; false in general for the code as it is."
  },
  {
   "property": "C196",
   "status": "proved",
   "theorems": [
    "Verif.Forecast.forecast_ok",
    "Verif.Forecast.forecast_read",
    "Verif.Forecast.forecast_best",
    "Verif.Forecast.exact_best",
    "Verif.Forecast.beam_half",
    "Verif.Forecast.pars_maps",
    "Verif.Forecast.pars_var",
    "Verif.Forecast.noise_top",
    "Verif.Forecast.saved_read",
    "Verif.Forecast.fields_ok"
   ],
   "note": "Numbers printed with %E and read are any function of the number; names and values of settings fit on one line; the input table has distinct multipoles reaching the largest."
  },
  {
   "property": "C197",
   "status": "partial",
   "theorems": [
    "Verif.Forecast.fields_partial",
    "Verif.Forecast.forecast_ok",
    "Verif.Forecast.fields_file_fails",
    "Verif.Forecast.lensing_alone_fails",
    "Verif.Forecast.lensing_alone_never",
    "Verif.Forecast.lens_array_fails",
    "Verif.Forecast.defaults_fails",
    "Verif.Forecast.noise_message_fails",
    "Verif.Forecast.no_noise_fails",
    "Verif.Forecast.fields_noise_fails"
   ],
   "note": "B and lensing are chosen by the columns and lists of lensing noise work (C196); false in general for the code as it is."
  },
  {
   "property": "C198",
   "status": "proved",
   "theorems": [
    "Verif.MakeTables.base_spec",
    "Verif.MakeTables.adding_spec",
    "Verif.MakeTables.replacing_spec",
    "Verif.MakeTables.plain_spec",
    "Verif.MakeTables.below_spec",
    "Verif.MakeTables.table_spec",
    "Verif.MakeTables.document_headings",
    "Verif.MakeTables.outName_one",
    "Verif.MakeTables.outName_all",
    "Verif.MakeTables.outPaths_spec"
   ],
   "note": "Loading results, making the LaTeX of one table and printing numbers are parameters (the tables themselves are properties of their own)."
  },
  {
   "property": "C199",
   "status": "partial",
   "theorems": [
    "Verif.MakeTables.shown_partial",
    "Verif.MakeTables.outPaths_spec",
    "Verif.MakeTables.columns_fails",
    "Verif.MakeTables.all_limits_fails",
    "Verif.MakeTables.separate_fails",
    "Verif.MakeTables.extension_fails",
    "Verif.MakeTables.nobestfit_fails",
    "Verif.MakeTables.ignored_fails",
    "Verif.MakeTables.average_fails",
    "Verif.MakeTables.unkind_fails",
    "Verif.MakeTables.both_fails",
    "Verif.MakeTables.underscore_fails"
   ],
   "note": "Each heading has a table without averages, without the option for columns and when likelihoods have kinds; false in general for the code as it is."
  },
  {
   "property": "C200",
   "status": "proved",
   "theorems": [
    "Verif.Scripts.peek_spec",
    "Verif.Scripts.scaleAll_spec",
    "Verif.Scripts.covscale_spec",
    "Verif.Scripts.params_tex",
    "Verif.Scripts.snippets_spec",
    "Verif.Scripts.latex_rows",
    "Verif.Scripts.compare_spec",
    "Verif.Scripts.written_spec",
    "Verif.Scripts.running_shown",
    "Verif.Scripts.running_stat",
    "Verif.Scripts.addGrids_spec",
    "Verif.Scripts.loadFiles_spec",
    "Verif.Scripts.match_root",
    "Verif.Scripts.wanted_spec",
    "Verif.Scripts.margeFile_spec",
    "Verif.Scripts.pad33_column",
    "Verif.Scripts.mathText_spec",
    "Verif.Scripts.jobLines_count",
    "Verif.Scripts.statOf_spec"
   ],
   "note": "Files, listings, the queue, printing of numbers and the LaTeX of a limit are parameters; roots have no wildcards."
  },
  {
   "property": "C201",
   "status": "partial",
   "theorems": [
    "Verif.Scripts.peek_index_partial",
    "Verif.Scripts.own_values_partial",
    "Verif.Scripts.peek_index_fails",
    "Verif.Scripts.peek_unknown_fails",
    "Verif.Scripts.covscale_usage_fails",
    "Verif.Scripts.covscale_zip_fails",
    "Verif.Scripts.covscale_one_fails",
    "Verif.Scripts.latex_unknown_fails",
    "Verif.Scripts.snippet_unknown_fails",
    "Verif.Scripts.snippet_dot_fails",
    "Verif.Scripts.written_here_fails",
    "Verif.Scripts.written_here_never",
    "Verif.Scripts.directory_made_fails",
    "Verif.Scripts.extension_added_fails",
    "Verif.Scripts.own_values_fails",
    "Verif.Scripts.all_shown_fails",
    "Verif.Scripts.no_jobs_fails",
    "Verif.Scripts.same_data_fails",
    "Verif.Scripts.no_grid_fails",
    "Verif.Scripts.read_here_fails"
   ],
   "note": "True with one more argument and for one parameter; false in general for the code as it is."
  },
  {
   "property": "C202",
   "status": "proved",
   "theorems": [
    "Verif.PlotLinks.made_linked",
    "Verif.PlotLinks.lower_linked",
    "Verif.PlotLinks.made_then_changed",
    "Verif.PlotLinks.carried_step",
    "Verif.PlotLinks.setLim_cycle",
    "Verif.PlotLinks.shares_symm"
   ],
   "note": "How matplotlib sets a range (the axes, their callbacks, then the axes sharing it without callbacks) is part of the model."
  },
  {
   "property": "C203",
   "status": "partial",
   "theorems": [
    "Verif.PlotLinks.linked_partial",
    "Verif.PlotLinks.upper_x_fails",
    "Verif.PlotLinks.first_diagonal_fails",
    "Verif.PlotLinks.right_label_fails",
    "Verif.PlotLinks.all_linked_fails"
   ],
   "note": "True for the subplots named in Carried; false in general for the code as it is."
  },
  {
   "property": "C204",
   "status": "proved",
   "theorems": [
    "Verif.PlotGrid.param_array",
    "Verif.PlotGrid.param_array_unknown",
    "Verif.PlotGrid.param_array_pattern",
    "Verif.PlotGrid.samples_label",
    "Verif.PlotGrid.labels_count",
    "Verif.PlotGrid.anonymous_distinct",
    "Verif.PlotGrid.label_nonempty",
    "Verif.PlotGrid.plots1d_spec",
    "Verif.PlotGrid.pairs_spec",
    "Verif.PlotGrid.figure_shape",
    "Verif.PlotGrid.palerColors_spec",
    "Verif.PlotGrid.line_matches_contour",
    "Verif.PlotGrid.filledColor_last",
    "Verif.PlotGrid.roots1d_spec",
    "Verif.PlotGrid.contourColors_one",
    "Verif.PlotGrid.displayName_empty",
    "Verif.PlotGrid.samplesName_default",
    "Verif.PlotGrid.shareAndCols_spec",
    "Verif.PlotGrid.checkParam_unknown"
   ],
   "note": "Names are those that can be written in a .paramnames file; loading samples is a parameter."
  },
  {
   "property": "C205",
   "status": "partial",
   "theorems": [
    "Verif.PlotGrid.check_partial",
    "Verif.PlotGrid.paths_partial",
    "Verif.PlotGrid.listed_partial",
    "Verif.PlotGrid.sets_partial",
    "Verif.PlotGrid.axis_partial",
    "Verif.PlotGrid.pattern_list_fails",
    "Verif.PlotGrid.pattern_question_fails",
    "Verif.PlotGrid.check_original_fails",
    "Verif.PlotGrid.check_renames_fails",
    "Verif.PlotGrid.usetex_paths_fails",
    "Verif.PlotGrid.per_param_labels_fails",
    "Verif.PlotGrid.list_rename_fails",
    "Verif.PlotGrid.not_shared_fails",
    "Verif.PlotGrid.pairs_object_fails",
    "Verif.PlotGrid.max_z_fails",
    "Verif.PlotGrid.axis_labels_fails",
    "Verif.PlotGrid.zero_factor_fails",
    "Verif.PlotGrid.useRenames_drops"
   ],
   "note": "True for renames to one name, without LaTeX, without max_z and without limits; false in general for the code as it is."
  },
  {
   "property": "C206",
   "status": "proved",
   "theorems": [
    "Verif.StatCache.range_used",
    "Verif.StatCache.moments_fresh",
    "Verif.StatCache.density_fresh",
    "Verif.StatCache.density_history",
    "Verif.StatCache.update_fresh",
    "Verif.StatCache.after_density",
    "Verif.StatCache.marge_first",
    "Verif.StatCache.covmat_sampled",
    "Verif.StatCache.addDerived_plain",
    "Verif.StatCache.new_inv"
   ],
   "note": "The numerical formulas are parameters (they are functions of samples, ranges and settings); names have no aliases."
  },
  {
   "property": "C207",
   "status": "partial",
   "theorems": [
    "Verif.StatCache.marge_first",
    "Verif.StatCache.update_fresh",
    "Verif.StatCache.after_density",
    "Verif.StatCache.marge_stale_fails",
    "Verif.StatCache.marge_new_parameter_fails",
    "Verif.StatCache.like_stale_fails",
    "Verif.StatCache.covmat_fails",
    "Verif.StatCache.covmat_columns_fails",
    "Verif.StatCache.refused_fails",
    "Verif.StatCache.returned_object_fails",
    "Verif.StatCache.update_fresh_partial"
   ],
   "note": "True after updateBaseStatistics or any density; false in general for the code as it is."
  },
  {
   "property": "C208",
   "status": "proved",
   "theorems": [
    "Verif.GridSetup.search_spec",
    "Verif.GridSetup.search_sound",
    "Verif.GridSetup.replace1_spec",
    "Verif.GridSetup.renames_tried",
    "Verif.GridSetup.without_spec",
    "Verif.GridSetup.renamer_camspec",
    "Verif.GridSetup.subBetween_spec",
    "Verif.GridSetup.renamer_version",
    "Verif.GridSetup.renamer_wa",
    "Verif.GridSetup.default_search"
   ],
   "note": "The file system is a predicate; without_spec is for settings without name mappings."
  },
  {
   "property": "C209",
   "status": "partial",
   "theorems": [
    "Verif.GridSetup.fallback_dir_partial",
    "Verif.GridSetup.mapped_partial",
    "Verif.GridSetup.fallback_dir_fails",
    "Verif.GridSetup.mapped_away_fails",
    "Verif.GridSetup.renamer_case_fails"
   ],
   "note": "True for absolute directories and mappings to other names; false in general for the code as it is."
  },
  {
   "property": "C210",
   "status": "proved",
   "theorems": [
    "Verif.GridSetup.made_then_read",
    "Verif.GridSetup.read_nothing",
    "Verif.GridSetup.read_again",
    "Verif.GridSetup.read_twice",
    "Verif.GridSetup.parse_spec",
    "Verif.GridSetup.options_asked",
    "Verif.GridSetup.options_default"
   ],
   "note": "The stored object is a value or unreadable; the code directory exists for read_twice."
  },
  {
   "property": "C211",
   "status": "partial",
   "theorems": [
    "Verif.GridSetup.read_again",
    "Verif.GridSetup.made_then_read",
    "Verif.GridSetup.plots_always",
    "Verif.GridSetup.new_chains_fails",
    "Verif.GridSetup.new_settings_fails",
    "Verif.GridSetup.reset_harmless_fails",
    "Verif.GridSetup.error_kept_fails",
    "Verif.GridSetup.plots_fails",
    "Verif.GridSetup.no_path_fails",
    "Verif.GridSetup.select_without_fails",
    "Verif.GridSetup.made_then_read_partial"
   ],
   "note": "True when the grid is made again; false in general for the code as it is."
  },
  {
   "property": "C212",
   "status": "proved",
   "theorems": [
    "Verif.SubmitJob.dry_run",
    "Verif.SubmitJob.refused",
    "Verif.SubmitJob.commands_spec",
    "Verif.SubmitJob.background",
    "Verif.SubmitJob.build_command",
    "Verif.SubmitJob.build_value",
    "Verif.SubmitJob.slots",
    "Verif.SubmitJob.submit_spec",
    "Verif.SubmitJob.files_written",
    "Verif.SubmitJob.sent_once",
    "Verif.SubmitJob.sge_id",
    "Verif.SubmitJob.indexed",
    "Verif.SubmitJob.default_values",
    "Verif.SubmitJob.default_queue",
    "Verif.SubmitJob.plainCommand_words",
    "Verif.SubmitJob.intStr_nat"
   ],
   "note": "The queue program is a function of command and script; templates are handled in C62."
  },
  {
   "property": "C213",
   "status": "partial",
   "theorems": [
    "Verif.SubmitJob.sge_id",
    "Verif.SubmitJob.indexed",
    "Verif.SubmitJob.own_log_fails",
    "Verif.SubmitJob.no_answer_fails",
    "Verif.SubmitJob.id_printed_fails",
    "Verif.SubmitJob.error_first_fails",
    "Verif.SubmitJob.sge_id_partial"
   ],
   "note": "True for Grid Engine's answers; false in general for the code as it is."
  },
  {
   "property": "C214",
   "status": "proved",
   "theorems": [
    "Verif.SigNoise.noise_spec",
    "Verif.SigNoise.bounds",
    "Verif.SigNoise.eigs_unique",
    "Verif.SigNoise.refused"
   ],
   "note": "Real numbers; cholesky and eigh are parameters with numpy's specification as hypothesis."
  },
  {
   "property": "C215",
   "status": "proved",
   "theorems": [
    "Verif.Scatter.alpha_points",
    "Verif.Scatter.copies_total",
    "Verif.Scatter.bounds_enclose",
    "Verif.Scatter.thinBy_get",
    "Verif.Scatter.thinBy_sublist",
    "Verif.Scatter.add3d_points",
    "Verif.Scatter.limLoop_mem",
    "Verif.Scatter.limLoop_ok",
    "Verif.Scatter.limLoop_perm",
    "Verif.Scatter.color4d_spec",
    "Verif.Scatter.plot4d_colors",
    "Verif.Scatter.axisLim_spec",
    "Verif.Scatter.bands12_spec",
    "Verif.Scatter.addBands_spec",
    "Verif.Scatter.covLike_inverse",
    "Verif.Scatter.covDensity_peak",
    "Verif.Scatter.contour_mass",
    "Verif.Scatter.covContours_mass",
    "Verif.Scatter.export_plain",
    "Verif.Scatter.export_asis",
    "Verif.Scatter.exportDir_spec"
   ],
   "note": "Exact numbers; random indices are a parameter; matplotlib draws what it is given."
  },
  {
   "property": "C216",
   "status": "partial",
   "theorems": [
    "Verif.Scatter.named_after_script_partial",
    "Verif.Scatter.export_plain",
    "Verif.Scatter.export_asis",
    "Verif.Scatter.opacityIn2d_fails",
    "Verif.Scatter.shortColorsOk_fails",
    "Verif.Scatter.anyNumberOfBands_fails",
    "Verif.Scatter.extensionKept_fails",
    "Verif.Scatter.defaultExtension_fails",
    "Verif.Scatter.savedInDirectory_fails",
    "Verif.Scatter.namedAfterScript_fails"
   ],
   "note": "True for names without dots and directories; false in general for the code as it is."
  },
  {
   "property": "C217",
   "status": "proved",
   "theorems": [
    "Verif.NumText.readLabel_sci",
    "Verif.NumText.label_faithful",
    "Verif.NumText.first_char",
    "Verif.NumText.int_not_float",
    "Verif.NumText.point_value",
    "Verif.NumText.nopoint_value",
    "Verif.NumText.yaml_roundtrip",
    "Verif.NumText.construct_error_iff",
    "Verif.NumText.label_formula",
    "Verif.NumText.base60_value"
   ],
   "note": "Exact numbers; the regular expression is one of Mathlib's; PyYAML's constructor of floats is modelled from its documentation."
  },
  {
   "property": "C218",
   "status": "partial",
   "theorems": [
    "Verif.NumText.dot_value_partial",
    "Verif.NumText.construct_error_iff",
    "Verif.NumText.negative_dot_fails",
    "Verif.NumText.dot_exponent_fails",
    "Verif.NumText.underscore_fails"
   ],
   "note": "True without sign and with a signed exponent; false in general for the code as it is."
  },
  {
   "property": "C219",
   "status": "proved",
   "theorems": [
    "Verif.PlanckStyle.plotBands_spec",
    "Verif.PlanckStyle.band_inside",
    "Verif.PlanckStyle.band_center",
    "Verif.PlanckStyle.plotBandsScalar_spec",
    "Verif.PlanckStyle.exportDir_spec",
    "Verif.PlanckStyle.plotterDir_spec",
    "Verif.PlanckStyle.run_colorbar",
    "Verif.PlanckStyle.single_sizes",
    "Verif.PlanckStyle.subplots_sizes",
    "Verif.PlanckStyle.plotterWidth_spec",
    "Verif.PlanckStyle.getLikelihood_plik",
    "Verif.PlanckStyle.startTable_templates",
    "Verif.PlanckStyle.titleRow_width",
    "Verif.PlanckStyle.belowTitle_width",
    "Verif.PlanckStyle.headerRow_width",
    "Verif.PlanckStyle.row_width",
    "Verif.PlanckStyle.fullRow_width",
    "Verif.PlanckStyle.datalabel_spec"
   ],
   "note": "Exact numbers; the environment variables and the existence of files are parameters; a cell is what stands between ampersands."
  },
  {
   "property": "C220",
   "status": "partial",
   "theorems": [
    "Verif.PlanckStyle.labels_partial",
    "Verif.PlanckStyle.plotterDir_spec",
    "Verif.PlanckStyle.label_fails",
    "Verif.PlanckStyle.plot_data_fails",
    "Verif.PlanckStyle.sizes_fails",
    "Verif.PlanckStyle.subplot_size_fails",
    "Verif.PlanckStyle.ncol_fails",
    "Verif.PlanckStyle.byName_fails",
    "Verif.PlanckStyle.bands_fails"
   ],
   "note": "True for the other labels and with one column; false in general for the code as it is."
  },
  {
   "property": "C221",
   "status": "proved",
   "theorems": [
    "Verif.NameLists.kinds",
    "Verif.NameLists.setDefault_spec",
    "Verif.NameLists.setWithNames_spec",
    "Verif.NameLists.construct_core",
    "Verif.NameLists.construct_labels",
    "Verif.NameLists.addDerived_spec",
    "Verif.NameLists.addDerived_refused",
    "Verif.NameLists.parForm_spec",
    "Verif.NameLists.latexLabel_spec",
    "Verif.NameLists.listString_split",
    "Verif.NameLists.nameAt_spec"
   ],
   "note": "Files are given as the lists of parameters in them."
  },
  {
   "property": "C222",
   "status": "partial",
   "theorems": [
    "Verif.NameLists.rubin_columns_partial",
    "Verif.NameLists.rubin_given",
    "Verif.NameLists.newInfo_label",
    "Verif.NameLists.nameEquals_self",
    "Verif.NameLists.nameEquals_fails",
    "Verif.NameLists.names_space_fails",
    "Verif.NameLists.label_default_fails",
    "Verif.NameLists.add_existing_fails",
    "Verif.NameLists.rubin_columns_fails"
   ],
   "note": "True with derived parameters at the end; false in general for the code as it is."
  },
  {
   "property": "C223",
   "status": "proved",
   "theorems": [
    "Verif.DESFits.defCuts_spec",
    "Verif.DESFits.defCuts_order",
    "Verif.DESFits.convertTables_spec",
    "Verif.DESFits.convert_load",
    "Verif.DESFits.convert_vector",
    "Verif.DESFits.makeThetas_spec"
   ],
   "note": "Numbers are written without rounding; bins up to six, as in the reader."
  },
  {
   "property": "C224",
   "status": "partial",
   "theorems": [
    "Verif.DESFits.convert_load",
    "Verif.DESFits.format_partial",
    "Verif.DESFits.python3_fails",
    "Verif.DESFits.forms_fails",
    "Verif.DESFits.format_fails",
    "Verif.DESFits.alignment_fails"
   ],
   "note": "True with Python 2, equal angles and names in which .fits occurs only at the end; false in general for the code as it is."
  },
  {
   "property": "C225",
   "status": "proved",
   "theorems": [
    "Verif.MeanLikes.fineLikes_between",
    "Verif.MeanLikes.fineLikes_shift",
    "Verif.MeanLikes.normed_spec",
    "Verif.MeanLikes.mean2_cut",
    "Verif.MeanLikes.mean2_between",
    "Verif.MeanLikes.samples2_between",
    "Verif.MeanLikes.likes2_range",
    "Verif.MeanLikes.likes2_shift",
    "Verif.MeanLikes.mean1_between",
    "Verif.MeanLikes.likes1_shift",
    "Verif.MeanLikes.likesLog_spec",
    "Verif.MeanLikes.fineLogs_between",
    "Verif.MeanLikes.mean2_threshold"
   ],
   "note": "A convolution is a matrix of non-negative numbers; exact arithmetic."
  },
  {
   "property": "C226",
   "status": "partial",
   "theorems": [
    "Verif.MeanLikes.flat2_partial",
    "Verif.MeanLikes.flat2_fails",
    "Verif.MeanLikes.flat1_fails",
    "Verif.MeanLikes.logs_fails",
    "Verif.MeanLikes.logs_shift_fails"
   ],
   "note": "True in two dimensions without correction of bias; false in general for the code as it is."
  },
  {
   "property": "C227",
   "status": "proved",
   "theorems": [
    "Verif.DensityObj.run_coherent",
    "Verif.DensityObj.copies_coherent",
    "Verif.DensityObj.call_present",
    "Verif.DensityObj.normalize_copy",
    "Verif.DensityObj.normalize_place",
    "Verif.DensityObj.setP_accepts",
    "Verif.DensityObj.bounds_spec",
    "Verif.DensityObj.call2_grid",
    "Verif.DensityObj.prob1_spec",
    "Verif.DensityObj.norm_spec",
    "Verif.DensityObj.ends_spec"
   ],
   "note": "A spline is represented by the values it was made from; the interpolation is a parameter."
  },
  {
   "property": "C228",
   "status": "partial",
   "theorems": [
    "Verif.DensityObj.copies_coherent",
    "Verif.DensityObj.setP_accepts",
    "Verif.DensityObj.get2D_partial",
    "Verif.DensityObj.shared_fails",
    "Verif.DensityObj.sizes_fails",
    "Verif.DensityObj.prob2_fails",
    "Verif.DensityObj.unknown_fails"
   ],
   "note": "True without sharing, for arrays of the right dimension and known parameters; false in general for the code as it is."
  },
  {
   "property": "C229",
   "status": "proved",
   "theorems": [
    "Verif.PlotCalls.setAxes_fields",
    "Verif.PlotCalls.setAxes_numbers",
    "Verif.PlotCalls.hull2_spec",
    "Verif.PlotCalls.plot2_range",
    "Verif.PlotCalls.plot2_other",
    "Verif.PlotCalls.filledLevels_spec",
    "Verif.PlotCalls.contourLevels_spec",
    "Verif.PlotCalls.shade_spec",
    "Verif.PlotCalls.fade_anti",
    "Verif.PlotCalls.shadeLevels_spec",
    "Verif.PlotCalls.formatter_spec",
    "Verif.PlotCalls.names_fresh",
    "Verif.PlotCalls.fadeCount_spec"
   ],
   "note": "Drawing itself is not modelled: axes are their limits, labels and number settings; the power of shade levels is any increasing function from 0 to 1."
  },
  {
   "property": "C230",
   "status": "partial",
   "theorems": [
    "Verif.PlotCalls.plot2_range",
    "Verif.PlotCalls.setAxes_numbers",
    "Verif.PlotCalls.lims_none_fails",
    "Verif.PlotCalls.first_prior_fails",
    "Verif.PlotCalls.y_numbers_fails",
    "Verif.PlotCalls.no_setting_fails",
    "Verif.PlotCalls.stored_levels_fails",
    "Verif.PlotCalls.shade_fails",
    "Verif.PlotCalls.stale_names_fails",
    "Verif.PlotCalls.plot2_range_partial"
   ],
   "note": "True as in C229; false in general for the code as it is."
  },
  {
   "property": "C231",
   "status": "proved",
   "theorems": [
    "Verif.GuiPlot.plotData_ok",
    "Verif.GuiPlot.plotData_params",
    "Verif.GuiPlot.changed_spec",
    "Verif.GuiPlot.act_synced",
    "Verif.GuiPlot.changed_used",
    "Verif.GuiPlot.readString_spec",
    "Verif.GuiPlot.chainDirs_spec"
   ],
   "note": ""
  },
  {
   "property": "C232",
   "status": "partial",
   "theorems": [
    "Verif.GuiPlot.legend_fails",
    "Verif.GuiPlot.rectangle_color_fails",
    "Verif.GuiPlot.style_map_fails",
    "Verif.GuiPlot.style_color_fails",
    "Verif.GuiPlot.new_setting_fails",
    "Verif.GuiPlot.ini_back_fails",
    "Verif.GuiPlot.reset_fails",
    "Verif.GuiPlot.open_priority_fails",
    "Verif.GuiPlot.script_priority_fails",
    "Verif.GuiPlot.escape_fails",
    "Verif.GuiPlot.root_quote_fails",
    "Verif.GuiPlot.script_same_partial",
    "Verif.GuiPlot.script_settings_partial"
   ],
   "note": "refuted as a whole; script_same_partial and script_settings_partial hold for few roots in one-dimensional plots, a non-empty colour, and settings not all set back with an ini file"
  },
  {
   "property": "C233",
   "status": "proved",
   "theorems": [
    "Verif.GuiEdit.edit_replaces",
    "Verif.GuiEdit.edit_inserts",
    "Verif.GuiEdit.edit_twice",
    "Verif.GuiEdit.edit_plotter",
    "Verif.GuiEdit.setPlot_script",
    "Verif.GuiEdit.setPlot_lines",
    "Verif.GuiEdit.setPlot_assigned",
    "Verif.GuiEdit.setPlot_other",
    "Verif.GuiEdit.delPlot_spec",
    "Verif.GuiEdit.editPlot_spec",
    "Verif.GuiEdit.plotVals_spec",
    "Verif.GuiEdit.newText_spec",
    "Verif.GuiEdit.execText_spec"
   ],
   "note": ""
  },
  {
   "property": "C234",
   "status": "partial",
   "theorems": [
    "Verif.GuiEdit.ini_line_fails",
    "Verif.GuiEdit.two_plotters_fails",
    "Verif.GuiEdit.brace_fails",
    "Verif.GuiEdit.no_brace_fails",
    "Verif.GuiEdit.comma_fails",
    "Verif.GuiEdit.first_line_fails",
    "Verif.GuiEdit.duplicate_fails",
    "Verif.GuiEdit.after_plot_fails",
    "Verif.GuiEdit.bad_entry_fails",
    "Verif.GuiEdit.empty_text_fails",
    "Verif.GuiEdit.export_fails",
    "Verif.GuiEdit.edit_replaces_partial"
   ],
   "note": "refuted as a whole; what holds is C233"
  },
  {
   "property": "C235",
   "status": "proved",
   "theorems": [
    "Verif.GuiSelect.newRoot_spec",
    "Verif.GuiSelect.removeRoot_spec",
    "Verif.GuiSelect.removeRoot_one",
    "Verif.GuiSelect.tags_eq",
    "Verif.GuiSelect.selection_spec",
    "Verif.GuiSelect.selection_followed",
    "Verif.GuiSelect.tableParams_full",
    "Verif.GuiSelect.tableParams_sel",
    "Verif.GuiSelect.saveDirs_spec"
   ],
   "note": ""
  },
  {
   "property": "C236",
   "status": "partial",
   "theorems": [
    "Verif.GuiSelect.z_fails",
    "Verif.GuiSelect.alias_first_fails",
    "Verif.GuiSelect.same_name_fails",
    "Verif.GuiSelect.pca_fails",
    "Verif.GuiSelect.pca_error_fails",
    "Verif.GuiSelect.save_latex_fails",
    "Verif.GuiSelect.selection_same_partial",
    "Verif.GuiSelect.color_kept_partial"
   ],
   "note": "refuted as a whole; the selection and the colour are kept if no rename is the name of a later parameter"
  },
  {
   "property": "C237",
   "status": "proved",
   "theorems": [
    "Verif.SaveChains.tableOf_rep",
    "Verif.SaveChains.saveLoop_spec",
    "Verif.SaveChains.round_trip",
    "Verif.SaveChains.save_twice",
    "Verif.SaveChains.filterRun_spec",
    "Verif.SaveChains.tableOf_needs"
   ],
   "note": ""
  },
  {
   "property": "C238",
   "status": "partial",
   "theorems": [
    "Verif.SaveChains.stale_files_fails",
    "Verif.SaveChains.order_fails",
    "Verif.SaveChains.no_likelihoods_fails",
    "Verif.SaveChains.empty_chain_fails",
    "Verif.SaveChains.single_array_fails",
    "Verif.SaveChains.zero_weights_fails",
    "Verif.SaveChains.saved_found_partial"
   ],
   "note": "refuted as a whole; saved_found_partial: every chain saved is among those read"
  },
  {
   "property": "C239",
   "status": "proved",
   "theorems": [
    "Verif.Foregrounds.foregrounds_ok_iff",
    "Verif.Foregrounds.cib_ratio",
    "Verif.Foregrounds.all_numbers",
    "Verif.Foregrounds.scales",
    "Verif.Foregrounds.cross_possible",
    "Verif.Foregrounds.only_100",
    "Verif.Foregrounds.only_217",
    "Verif.Foregrounds.at_pivot",
    "Verif.Foregrounds.dust_and_sources",
    "Verif.Foregrounds.acib_given",
    "Verif.Foregrounds.read_by_name"
   ],
   "note": ""
  },
  {
   "property": "C240",
   "status": "partial",
   "theorems": [
    "Verif.Foregrounds.tilt_fails",
    "Verif.Foregrounds.power_law_fails",
    "Verif.Foregrounds.negative_acib_fails",
    "Verif.Foregrounds.negative_sz_fails",
    "Verif.Foregrounds.tilt_partial",
    "Verif.Foregrounds.running_partial"
   ],
   "note": "refuted as a whole; tilt_partial: with logarithms kept as numbers the power law holds"
  },
  {
   "property": "C241",
   "status": "proved",
   "theorems": [
    "Verif.DESNuis.bins_symmetric",
    "Verif.DESNuis.calibration",
    "Verif.DESNuis.galaxy_bias",
    "Verif.DESNuis.shear_own",
    "Verif.DESNuis.galaxies_own",
    "Verif.DESNuis.gammat_own",
    "Verif.DESNuis.weyl_same",
    "Verif.DESNuis.alignment_polynomial",
    "Verif.DESNuis.spectra_possible",
    "Verif.DESNuis.names_by_bin",
    "Verif.DESNuis.alignment_nla",
    "Verif.DESNuis.nChi_shift",
    "Verif.DESNuis.range_used"
   ],
   "note": ""
  },
  {
   "property": "C242",
   "status": "partial",
   "theorems": [
    "Verif.DESNuis.shear_only_fails",
    "Verif.DESNuis.more_bins_fails",
    "Verif.DESNuis.weyl_galaxies_fails",
    "Verif.DESNuis.theory_partial"
   ],
   "note": "refuted as a whole; theory_partial: with all parameters, at most four and five bins, and no Weyl potential"
  },
  {
   "property": "C243",
   "status": "proved",
   "theorems": [
    "Verif.ChainDump.minCl_zero",
    "Verif.ChainDump.place_in",
    "Verif.ChainDump.accum_spec",
    "Verif.ChainDump.colour_between",
    "Verif.ChainDump.sums_between",
    "Verif.ChainDump.shade_ok",
    "Verif.ChainDump.opacity_range"
   ],
   "note": ""
  },
  {
   "property": "C244",
   "status": "partial",
   "theorems": [
    "Verif.ChainDump.negative_fails",
    "Verif.ChainDump.wraps_fails",
    "Verif.ChainDump.all_negative_fails",
    "Verif.ChainDump.python3_fails",
    "Verif.ChainDump.gap_fails",
    "Verif.ChainDump.shade_ok_partial"
   ],
   "note": "refuted as a whole; what holds for spectra that are not negative is C243"
  },
  {
   "property": "C245",
   "status": "proved",
   "theorems": [
    "Verif.ChainDump.camb_depends",
    "Verif.ChainDump.camb_ok_iff",
    "Verif.ChainDump.camb_values"
   ],
   "note": ""
  },
  {
   "property": "C246",
   "status": "partial",
   "theorems": [
    "Verif.ChainDump.ignored_fails",
    "Verif.ChainDump.sampled_fails",
    "Verif.ChainDump.camb_ok_partial"
   ],
   "note": "refuted as a whole; what holds is C245"
  },
  {
   "property": "C247",
   "status": "proved",
   "theorems": [
    "Verif.PlotMake.size_number",
    "Verif.PlotMake.size_name",
    "Verif.PlotMake.size_default",
    "Verif.PlotMake.rc_own",
    "Verif.PlotMake.rc_idem",
    "Verif.PlotMake.size_mm",
    "Verif.PlotMake.own_settings",
    "Verif.PlotMake.single_size",
    "Verif.PlotMake.subplot_size",
    "Verif.PlotMake.fonts_kept",
    "Verif.PlotMake.rc_used",
    "Verif.PlotMake.planck_single",
    "Verif.PlotMake.planck_subplot"
   ],
   "note": ""
  },
  {
   "property": "C248",
   "status": "partial",
   "theorems": [
    "Verif.PlotMake.given_size_fails",
    "Verif.PlotMake.given_width_fails",
    "Verif.PlotMake.shared_fails",
    "Verif.PlotMake.rc_sizes_fails",
    "Verif.PlotMake.given_partial"
   ],
   "note": "refuted for sizes in settings given, shared settings and rc_sizes without width; fonts of settings given are kept"
  },
  {
   "property": "C249",
   "status": "proved",
   "theorems": [
    "Verif.PlotMake.text_args",
    "Verif.PlotMake.text_left",
    "Verif.PlotMake.marker_args",
    "Verif.PlotMake.alpha_spec",
    "Verif.PlotMake.finish_legend",
    "Verif.PlotMake.finish_constrained",
    "Verif.PlotMake.bar_label"
   ],
   "note": ""
  },
  {
   "property": "C250",
   "status": "partial",
   "theorems": [
    "Verif.PlotMake.rotation_zero_fails",
    "Verif.PlotMake.offset_fails",
    "Verif.PlotMake.one_contour_fails",
    "Verif.PlotMake.numbers_3d_fails",
    "Verif.PlotMake.labels_3d_partial"
   ],
   "note": "refuted; given labels and three or more roots are as expected"
  },
  {
   "property": "C251",
   "status": "proved",
   "theorems": [
    "Verif.PlanckGrids.lensing_wanted",
    "Verif.PlanckGrids.lensing_wanted13",
    "Verif.PlanckGrids.sn_wanted",
    "Verif.PlanckGrids.zre_wanted",
    "Verif.PlanckGrids.flat_wanted",
    "Verif.PlanckGrids.nnu_wanted",
    "Verif.PlanckGrids.bao_wanted",
    "Verif.PlanckGrids.lowl_wanted13",
    "Verif.PlanckGrids.imp_origin",
    "Verif.PlanckGrids.curved_18",
    "Verif.PlanckGrids.planck_18"
   ],
   "note": "filters as predicates on the run; origin of each importance run for all settings"
  },
  {
   "property": "C252",
   "status": "partial",
   "theorems": [
    "Verif.PlanckGrids.runs_distinct_15",
    "Verif.PlanckGrids.runs_distinct_13",
    "Verif.PlanckGrids.runs_distinct_18_fails",
    "Verif.PlanckGrids.runs_distinct_18_partial",
    "Verif.PlanckGrids.shared_twice"
   ],
   "note": "false for the grid of 2018: four runs of the base model are in two groups"
  },
  {
   "property": "C253",
   "status": "proved",
   "theorems": [
    "Verif.PlanckGrids.inis_made",
    "Verif.PlanckGrids.extras_hold",
    "Verif.PlanckGrids.sterile_range"
   ],
   "note": "for all runs of the three grids"
  },
  {
   "property": "C254",
   "status": "partial",
   "theorems": [
    "Verif.PlanckGrids.sterile_order_fails",
    "Verif.PlanckGrids.lensing_wmap_fails",
    "Verif.PlanckGrids.fix_cl_fails",
    "Verif.PlanckGrids.camspec_tag_fails",
    "Verif.PlanckGrids.fix_cl_partial"
   ],
   "note": "each part is refuted; what holds of the lensing variants is proved"
  },
  {
   "property": "C255",
   "status": "proved",
   "theorems": [
    "Verif.JobResults.bestfit_spec",
    "Verif.JobResults.minimumConverged_spec",
    "Verif.JobResults.load_fresh",
    "Verif.JobResults.load_ok_iff",
    "Verif.JobResults.load_spec",
    "Verif.JobResults.withBest_spec",
    "Verif.JobResults.conv_origin",
    "Verif.JobResults.ask_now"
   ],
   "note": "readers of the files are those of the models BestFit, MargeStats and JobStatus"
  },
  {
   "property": "C256",
   "status": "partial",
   "theorems": [
    "Verif.JobResults.stale_best_fails",
    "Verif.JobResults.stale_R_fails",
    "Verif.JobResults.no_converge_fails",
    "Verif.JobResults.no_like_fails",
    "Verif.JobResults.unreadable_minimum_fails",
    "Verif.JobResults.ask_after_load_partial"
   ],
   "note": "each part is refuted; after loading the convergence is that of the file"
  },
  {
   "property": "C257",
   "status": "proved",
   "theorems": [
    "Verif.LoadText.rows_spec",
    "Verif.LoadText.table_ok",
    "Verif.LoadText.load_spec",
    "Verif.LoadText.samples_spec"
   ],
   "note": "the parsers of pandas and numpy are modelled as documented for the arguments given"
  },
  {
   "property": "C258",
   "status": "partial",
   "theorems": [
    "Verif.LoadText.short_row_fails",
    "Verif.LoadText.column_fails",
    "Verif.LoadText.empty_chain_fails",
    "Verif.LoadText.same_partial"
   ],
   "note": "each part is refuted; complete rows of at least two columns are read in the same way"
  },
  {
   "property": "C259",
   "status": "proved",
   "theorems": [
    "Verif.Config.config_spec",
    "Verif.Config.defaultCache_spec",
    "Verif.Config.makeCacheDir_spec",
    "Verif.Config.cached_spec",
    "Verif.Config.gridCacheFile_spec",
    "Verif.Config.gridCacheFile_inj",
    "Verif.Config.paramFile_spec",
    "Verif.Config.fsizestr_spec",
    "Verif.Config.cleanLoop_spec"
   ],
   "note": "the file system and the hash are parameters"
  },
  {
   "property": "C260",
   "status": "partial",
   "theorems": [
    "Verif.Config.missing_config_fails",
    "Verif.Config.empty_xdg_fails",
    "Verif.Config.file_as_dir_fails",
    "Verif.Config.other_grid_fails",
    "Verif.Config.huge_file_fails",
    "Verif.Config.own_grid_partial"
   ],
   "note": "each part is refuted; without a cache directory grids are not mixed up"
  },
  {
   "property": "C261",
   "status": "proved",
   "theorems": [
    "Verif.TablePng.tidy_end",
    "Verif.TablePng.picture_spec",
    "Verif.TablePng.default_name"
   ],
   "note": "LaTeX and dvipng are parameters; the temporary name is new"
  },
  {
   "property": "C262",
   "status": "partial",
   "theorems": [
    "Verif.TablePng.relative_fails",
    "Verif.TablePng.no_latex_fails",
    "Verif.TablePng.bytes_partial"
   ],
   "note": "each part is refuted; without a name and with bytesIO the result is the picture or an error"
  },
  {
   "property": "C263",
   "status": "proved",
   "theorems": [
    "Verif.ListGrid.sortedTags_spec",
    "Verif.ListGrid.listGrid_spec",
    "Verif.ListGrid.mpiJob_spec"
   ],
   "note": "the choice of runs is that of C35"
  },
  {
   "property": "C264",
   "status": "partial",
   "theorems": [
    "Verif.ListGrid.options_fails",
    "Verif.ListGrid.inner_ini_fails",
    "Verif.ListGrid.iniRoot_partial"
   ],
   "note": "each part is refuted; names with one extension are kept apart"
  },
  {
   "property": "C265",
   "status": "proved",
   "theorems": [
    "Verif.Highlight.indexIn_spec",
    "Verif.Highlight.indexIn_none",
    "Verif.Highlight.rounds_enough",
    "Verif.Highlight.none_spec",
    "Verif.Highlight.one_spec"
   ],
   "note": "one kind of quote; other rules of colours are left out"
  },
  {
   "property": "C266",
   "status": "partial",
   "theorems": [
    "Verif.Highlight.reopen_fails",
    "Verif.Highlight.overrun_fails",
    "Verif.Highlight.state_partial"
   ],
   "note": "each part is refuted; lines with at most one triple quote are right"
  },
  {
   "property": "C267",
   "status": "proved",
   "theorems": [
    "Verif.SampleRanges.setRange_agrees",
    "Verif.SampleRanges.setAll_spec",
    "Verif.SampleRanges.dict_spec",
    "Verif.SampleRanges.list_spec",
    "Verif.SampleRanges.bounds_spec",
    "Verif.SampleRanges.other_spec",
    "Verif.SampleRanges.update_shows",
    "Verif.SampleRanges.update_limits",
    "Verif.SampleRanges.absent_none",
    "Verif.SampleRanges.rangesFile_spec",
    "Verif.SampleRanges.list_total"
   ],
   "note": "names of parameters are different; settings are a function of the key"
  },
  {
   "property": "C268",
   "status": "partial",
   "theorems": [
    "Verif.SampleRanges.refused_fails",
    "Verif.SampleRanges.at_once_fails",
    "Verif.SampleRanges.words_fails",
    "Verif.SampleRanges.removed_fails",
    "Verif.SampleRanges.set_update_partial"
   ],
   "note": "each part is refuted; ranges accepted take effect once the statistics are computed"
  },
  {
   "property": "C269",
   "status": "proved",
   "theorems": [
    "Verif.Packaging.version_found",
    "Verif.Packaging.version_none",
    "Verif.Packaging.description_spec",
    "Verif.Packaging.description_none",
    "Verif.Packaging.app_spec"
   ],
   "note": "texts as read; what setuptools does is left out"
  },
  {
   "property": "C270",
   "status": "partial",
   "theorems": [
    "Verif.Packaging.quote_fails",
    "Verif.Packaging.blanks_fails",
    "Verif.Packaging.title_fails",
    "Verif.Packaging.first_line_partial"
   ],
   "note": "each part is refuted; versions without quotes in the first line are found"
  },
  {
   "property": "C271",
   "status": "proved",
   "theorems": [
    "Verif.OddMoments.moment_rec",
    "Verif.OddMoments.moment_transpose",
    "Verif.OddMoments.power_mirror",
    "Verif.OddMoments.power_neg",
    "Verif.OddMoments.psi_mirror",
    "Verif.OddMoments.moment_mirror",
    "Verif.OddMoments.moment_independent",
    "Verif.OddMoments.getH_mirror",
    "Verif.OddMoments.kodd_spec",
    "Verif.OddMoments.oddTime_spec",
    "Verif.OddMoments.power_spec",
    "Verif.OddMoments.freq_spec",
    "Verif.OddMoments.weight_spec",
    "Verif.OddMoments.psi_one"
   ],
   "note": "over the reals; the transform is written as its sum; minimizers that treat mirror images alike"
  },
  {
   "property": "C272",
   "status": "partial",
   "theorems": [
    "Verif.OddMoments.independent_fails",
    "Verif.OddMoments.mirror_fails",
    "Verif.OddMoments.mirror_partial"
   ],
   "note": "refuted for two bins; true for data with nothing at the highest frequency, and for odd numbers of bins (C271)"
  },
  {
   "property": "C273",
   "status": "proved",
   "theorems": [
    "Verif.LikeTable.row_spec",
    "Verif.LikeTable.text_spec",
    "Verif.LikeTable.columns_spec",
    "Verif.LikeTable.text_read",
    "Verif.LikeTable.row_needs_two",
    "Verif.LikeTable.header_spec"
   ],
   "note": "numbers are rational; names are words and labels trimmed"
  },
  {
   "property": "C274",
   "status": "partial",
   "theorems": [
    "Verif.LikeTable.empty_text_fails",
    "Verif.LikeTable.limits_lost_fails",
    "Verif.LikeTable.run_together_fails",
    "Verif.LikeTable.text_read_partial"
   ],
   "note": "each part is refuted; the summary comes back, and columns are kept apart for exponents of two digits"
  },
  {
   "property": "C275",
   "status": "proved",
   "theorems": [
    "Verif.PlotArrays.triplets_spec",
    "Verif.PlotArrays.plots3d_spec",
    "Verif.PlotArrays.proxies3_spec",
    "Verif.PlotArrays.legend3_spec",
    "Verif.PlotArrays.order_spec",
    "Verif.PlotArrays.reverse_spec",
    "Verif.PlotArrays.finish_spec",
    "Verif.PlotArrays.item_spec",
    "Verif.PlotArrays.finish_order"
   ],
   "note": "matplotlib's pairing of lines and labels up to the shorter list is assumed"
  },
  {
   "property": "C276",
   "status": "partial",
   "theorems": [
    "Verif.PlotArrays.reversible_partial",
    "Verif.PlotArrays.shown_partial",
    "Verif.PlotArrays.proxies3_length",
    "Verif.PlotArrays.no_triplets_fails",
    "Verif.PlotArrays.repeated_lines_fails",
    "Verif.PlotArrays.reversed_legend_fails",
    "Verif.PlotArrays.gap_kept_fails"
   ],
   "note": "refuted: lines repeat for every subplot, reversing fails with an index error, gaps of the first subplot stay, no triplets divide by zero"
  }
 ]
}