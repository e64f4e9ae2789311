{"id": "C01", "title": "Ini save/load round trip", "statement": "Saving an IniFile's settings to text and reading that text back with a fresh IniFile yields exactly the same name -> value table (no entry lost, added or altered), for every table whose names and values are representable on one line.", "quantifier": "all finite settings tables with one-line names/values, all read orders, with and without environment expansion disabled", "why_tests_cant": "The space of tables, names containing '=' / comment marks / reserved prefixes and orderings is unbounded; a test samples a few friendly names.", "anchors": ["python/getdist/inifile.py: IniFile.fileLines, IniFile.saveFile, IniFile.readFile"]}
{"id": "C02", "title": "Ini precedence: the including file beats its DEFAULT files, and earlier DEFAULTs beat later ones", "statement": "After reading a file with nested DEFAULT(..) files the value of every name is the one from the first place that defines it in the order: the file itself, its INCLUDE files, then its DEFAULT files in the order written (recursively); a value set in the file itself is never changed by any DEFAULT file.", "quantifier": "all finite trees of files, all names, all include/default nestings that terminate", "why_tests_cant": "Depends on the whole include tree; tests exercise one or two levels.", "anchors": ["python/getdist/inifile.py: IniFile.readFile"]}
{"id": "C03", "title": "Ini duplicate definitions are rejected, never silently merged", "statement": "Reading a file (with INCLUDEs, without DEFAULTs) succeeds only if no name is defined twice among the file and its includes; otherwise a duplicate key error is raised. Under DEFAULT semantics a duplicate is skipped and no error is raised.", "quantifier": "all files and include lists", "why_tests_cant": "The error must fire for every pair of positions in every pair of files.", "anchors": ["python/getdist/inifile.py: IniFile.readFile"]}
{"id": "C04", "title": "Every setting is written exactly once, in read order then alphabetically", "statement": "The lines produced for saving contain each currently stored name exactly once; names that were read from file come first in the order they were read, followed by the remaining names in sorted order; deleted names do not appear.", "quantifier": "all sequences of reads, assignments and deletions", "why_tests_cant": "Quantifies over edit histories; duplicates only show up for particular interleavings of read order and deletion.", "anchors": ["python/getdist/inifile.py: IniFile.fileLines, IniFile.delete_keys, IniFile.readFile"]}
{"id": "C05", "title": "Placeholder expansion replaces exactly the $(name) references", "statement": "Text without any $( reference is returned unchanged (including '$$', which is an escape only in texts that contain a reference); in text containing a reference and built from literal characters, '$$' escapes and $(name) references, each reference is replaced by the environment value (empty if unset), each escape becomes a single '$', and the environment values themselves are not rescanned. Unterminated references raise an error.", "quantifier": "all strings and all environments", "why_tests_cant": "Index arithmetic over a string that is re-sliced during the loop; errors only for specific adjacency of markers.", "anchors": ["python/getdist/inifile.py: IniFile.expand_placeholders"]}
{"id": "C06", "title": "Comments belong to the setting they precede", "statement": "The comment lines stored for a setting of the loaded file are exactly the comment lines that directly precede it in the file (with only comment lines between).", "quantifier": "all files, with or without INCLUDE and DEFAULT lines", "why_tests_cant": "Only goes wrong when a skipped duplicate sits between a comment and the next setting (DEFAULT files); this history dependence is not sampled by tests.", "anchors": ["python/getdist/inifile.py: IniFile.readFile"]}
{"id": "C07", "title": ".paramnames save/load round trip", "statement": "Writing a parameter list to a .paramnames file and loading it returns the same names, derived flags, labels and comments in the same order, for every list of representable parameters.", "quantifier": "all finite parameter lists with legal names, labels without '#'/'!' or surrounding blanks, comments without surrounding blanks", "why_tests_cant": "Unbounded lists and label alphabets (LaTeX) with several escape characters.", "anchors": ["python/getdist/paramnames.py: ParamInfo.setFromString, ParamInfo.string, ParamList.saveAsText, ParamNames.loadFromFile"]}
{"id": "C08", "title": "Keyword save/load round trip with LaTeX escaping", "statement": "Saving a parameter list to keywords (backslash written as '!') and loading it back recovers every name, label, derived flag and comment.", "quantifier": "all finite parameter lists", "why_tests_cant": "Escape/unescape composition must hold for every label.", "anchors": ["python/getdist/paramnames.py: ParamNames.saveKeyWords, ParamNames.loadFromKeyWords, ParamInfo.setFromStringWithComment"]}
{"id": "C09", "title": "Merging renames computes alias classes", "statement": "Merging with keep_names_1st: two names end up in the same merged entry exactly when they are connected by a chain of alias declarations in any of the inputs; the merged entries are pairwise disjoint and list no name twice; the key is a name declared as a key in the left-most input that has a key in the class; no name is lost. All of this whatever element set.pop returns.", "quantifier": "all finite collections of alias dictionaries", "why_tests_cant": "The closure is computed by an in-place fixpoint loop with early breaks; chains of any length and order must merge.", "anchors": ["python/getdist/paramnames.py: mergeRenames"]}
{"id": "C10", "title": "Parameter lookup by name, alias and index agree", "statement": "Looking up a name returns the first parameter whose own name or alias (in either direction) matches; the reported index is the position of the first parameter with exactly that name, and is -1 exactly when there is none; for lists with distinct names and no aliases both agree.", "quantifier": "all parameter lists, names and rename dictionaries", "why_tests_cant": "Order dependence and alias symmetry over unbounded lists.", "anchors": ["python/getdist/paramnames.py: ParamList.parWithName, ParamList.numberOfName, ParamList.hasParam"]}
{"id": "C11", "title": "Glob expansion of parameter names is complete and ordered", "statement": "Expanding a pattern list returns, for each pattern with * or ?, exactly the parameters whose name matches the glob in list order, and for each plain name exactly one entry.", "quantifier": "all pattern lists and parameter lists", "why_tests_cant": "Quantifies over all patterns; includes empty match and wildcard only.", "anchors": ["python/getdist/paramnames.py: ParamList.parsWithNames, ParamList.getMatches"]}
{"id": "C12", "title": "Weighted quantiles (confidence limits) are correct quantiles", "statement": "The lower (upper) confidence limit for probability p is an attained sample value x such that the weight of samples strictly below (above) x is at most p times the total, while the weight at or below (above) x exceeds / reaches it; limits are monotone in p.", "quantifier": "all weighted samples with non-negative weights (positive total) and all p in [0,1]", "why_tests_cant": "Off-by-one in searchsorted side / cumulative sums only show for particular ties and weights.", "anchors": ["python/getdist/chains.py: WeightedSamples.initParamConfidenceData, WeightedSamples.confidence, WeightedSamples.twoTailLimits"]}
{"id": "C13", "title": "Thinning to single samples keeps the right number of samples in order", "statement": "Thinning an integer-weight chain by factor f returns non-decreasing valid row indices; when f is below the largest weight there are exactly total_weight // f of them and every row of weight w is repeated between w//f and w//f + 1 times; otherwise indices are strictly increasing and their number is total_weight//f or one more.", "quantifier": "all integer weight vectors and all factors >= 1", "why_tests_cant": "Carry-over arithmetic across rows; depends on the whole prefix of the chain.", "anchors": ["python/getdist/chains.py: WeightedSamples.thin_indices_single_samples, WeightedSamples.thin_indices"]}
{"id": "C14", "title": "Weighted mean, variance and covariance are well behaved", "statement": "The weighted mean of a parameter lies between its smallest and largest sampled value; the variance is never negative and is zero iff the parameter is constant on positive-weight rows; the covariance matrix is symmetric and positive semi-definite; shifting a parameter shifts the mean and leaves the covariance unchanged.", "quantifier": "all sample arrays and non-negative weights with positive total (exact arithmetic)", "why_tests_cant": "Real-valued universally quantified algebraic facts.", "anchors": ["python/getdist/chains.py: WeightedSamples.mean, var, cov, mean_diff, mean_diffs, get_norm"]}
{"id": "C15", "title": "Correlation matrix is normalised", "statement": "Normalising a covariance matrix gives a symmetric matrix with unit diagonal (where the variance is non-zero) whose squared entries are at most one.", "quantifier": "all covariance matrices of samples", "why_tests_cant": "Cauchy-Schwarz: cannot be settled by sampling.", "anchors": ["python/getdist/chains.py: covToCorr, WeightedSamples.corr", "python/getdist/covmat.py: CovMat.correlation"]}
{"id": "C16", "title": "Row operations keep samples, weights and likelihoods aligned", "statement": "Filtering, thinning, burn-in removal, zero-weight deletion, minimum-weight cuts, reweighting and cooling keep the three arrays the same length and never pair a sample with another row's likelihood.", "quantifier": "all sequences of row operations on all samples", "why_tests_cant": "Histories of operations; misalignment would only appear after particular combinations (e.g. missing loglikes).", "anchors": ["python/getdist/chains.py: WeightedSamples.filter, thin, removeBurn, deleteZeros, setMinWeightRatio, reweightAddingLogLikes, cool"]}
{"id": "C17", "title": "Cached statistics are never stale", "statement": "After any sequence of operations, the means, variances, norm and covariance returned by the accessors equal those computed from scratch from the current samples and weights.", "quantifier": "all operation sequences", "why_tests_cant": "Cache invalidation must be right on every path; tests only follow some.", "anchors": ["python/getdist/chains.py: WeightedSamples._weightsChanged, setMeans, getMeans, getVars, getCov, setSamples, changeSamples, deleteFixedParams"]}
{"id": "C18", "title": "Importance reweighting composes", "statement": "Reweighting by one log-likelihood and then another equals, up to a global factor, reweighting by their sum; normalised weight ratios are independent of the offset used; cooling by t1 then t2 equals cooling by t1*t2.", "quantifier": "all weights, likelihood vectors and temperatures", "why_tests_cant": "Universally quantified algebra over sequences of operations.", "anchors": ["python/getdist/chains.py: WeightedSamples.reweightAddingLogLikes, WeightedSamples.cool"]}
{"id": "C19", "title": "Combining chains and splitting them again is lossless", "statement": "Making a single chain from separate chains and then asking for the separate chains returns the original chains, in order, row for row (weights and likelihoods included), provided no row falls below the minimum weight cut.", "quantifier": "all lists of chains", "why_tests_cant": "Offset bookkeeping for any number and length (including empty) of chains.", "anchors": ["python/getdist/chains.py: Chains.makeSingle, Chains.getSeparateChains"]}
{"id": "C20", "title": "Filtering keeps track of chain boundaries", "statement": "After filtering combined chains with a boolean mask (or weighted thinning), the separate chains are exactly the original separate chains filtered by the corresponding mask segments.", "quantifier": "all chain lists and masks", "why_tests_cant": "Boundary arithmetic for arbitrary masks; wrong boundaries silently corrupt convergence statistics.", "anchors": ["python/getdist/chains.py: Chains.filter, Chains.weighted_thin, Chains.getSeparateChains"]}
{"id": "C21", "title": "Burn-in removal drops the stated leading rows of each chain", "statement": "Removing a burn-in fraction from separate chains drops exactly the first round(n*f) (or, for f>=1, the first int(f)) rows of each chain; of the others it drops only those that the automatic weight cut removes.", "quantifier": "all lists of separate chains, burn-in fractions f >= 0, weight cut settings", "why_tests_cant": "Per-chain lengths vary arbitrarily; the combined case changes offsets.", "anchors": ["python/getdist/chains.py: Chains.removeBurnFraction, WeightedSamples.removeBurn"]}
{"id": "C22", "title": "Dropping fixed parameters keeps names and columns aligned and loses no varying data", "statement": "After removing fixed parameters from combined samples, column i of the samples is still the data of parameter name i, every removed column was constant over all rows, every constant column is removed, and the recorded fixed values are those constants.", "quantifier": "all sample matrices and name lists", "why_tests_cant": "Index deletion from several parallel structures; separate chains may differ in what is fixed.", "anchors": ["python/getdist/chains.py: Chains.deleteFixedParams, WeightedSamples.deleteFixedParams, ParamList.deleteIndices"]}
{"id": "C23", "title": "Chain file selection", "statement": "The list of chain files for a root with a directory contains exactly the files of that directory named root + separator + integer + extension (plus root+extension when allowed) whose index is within [first,last] and not excluded; no numbered file belongs to two roots.", "quantifier": "all directory listings, roots with a directory, index filters", "why_tests_cant": "Filename patterns over arbitrary directory contents.", "anchors": ["python/getdist/chains.py: chainFiles, hasChainFiles"]}
{"id": "C24", "title": "Merging covariance matrices: first file wins, new parameters are appended", "statement": "Combining covariance matrices keeps every entry of the first, adds entries of the second for parameters not in the first, zero elsewhere; the result is symmetric when the inputs are, and each parameter appears once.", "quantifier": "all pairs (and lists) of covariance matrices with distinct names", "why_tests_cant": "Index mapping between two arbitrary name orders.", "anchors": ["python/getdist/covmat.py: CovMat.mergeCovmatWhereNew", "python/getdist/covcomb.py"]}
{"id": "C25", "title": "Covariance file round trip and rescaling", "statement": "Saving and loading a covariance matrix of two or more parameters returns the same names and the entries rounded to the printed digits, and doing it again changes nothing; rescaling a parameter by s multiplies its row and column by s (diagonal by s^2), keeps symmetry, and rescaling by s then t equals rescaling by s*t.", "quantifier": "all covariance matrices of at least two parameters, names, factors", "why_tests_cant": "Algebra over all matrices.", "anchors": ["python/getdist/covmat.py: CovMat.loadFromFile, saveToFile, rescaleParameter"]}
{"id": "C26", "title": "Parameter ranges file round trip", "statement": "Saving prior bounds to a .ranges file and loading them returns the same lower/upper bounds for every parameter, rounded to the printed digits; unbounded sides stay unbounded; the order of the parameters is kept.", "quantifier": "all bound tables made by any history of settings, names that are single words", "why_tests_cant": "Text format with a magic N token and whitespace splitting; every name and side combination.", "anchors": ["python/getdist/parampriors.py: ParamBounds.setRange, __str__, saveToFile, loadFromFile"]}
{"id": "C27", "title": "Setting a range", "statement": "After any history of setRange and setFixed calls the reported lower and upper bounds are the ones last given for that side; a fixed value is reported exactly when both bounds exist and coincide.", "quantifier": "all names and histories of updates with ranges that are not empty", "why_tests_cant": "History dependence: later updates with an unbounded side after a bounded one.", "anchors": ["python/getdist/parampriors.py: ParamBounds.setRange, getLower, getUpper, fixedValue"]}
{"id": "C28", "title": "Job index stays consistent", "statement": "After any sequence of job additions and deletions, every live job can be found by its id, by its name and by each of its run names, and no deleted job is reachable.", "quantifier": "all add/delete histories, including reused job names and run names", "why_tests_cant": "Three cross-referenced dictionaries updated in sequence; only particular histories with shared names break.", "anchors": ["python/paramgrid/jobqueue.py: jobIndex.addJob, jobIndex.delId, addJobIndex, deleteJobNames"]}
{"id": "C29", "title": "The job index file survives a crash during saving", "statement": "If the process stops at any point during saving the index, the next load sees either the old index or the new index.", "quantifier": "all crash points and file system states", "why_tests_cant": "Requires stopping between individual file operations.", "anchors": ["python/paramgrid/jobqueue.py: saveJobIndex, loadJobIndex"]}
{"id": "C30", "title": "Job resources divide the cores consistently", "statement": "A request for job resources is accepted exactly if the cores of a node can be shared equally by all chains of all runs on it, and then chains per node x runs x threads is the number of cores; with nothing set every machine gets at least one thread per chain and at least three chains; a job with fewer runs than asked for never uses more than the cores of the node and leaves fewer idle than there are chains on it.", "quantifier": "all core counts and option combinations, jobs with 1 <= runs <= runsPerJob", "why_tests_cant": "Integer division logic over all inputs.", "anchors": ["python/paramgrid/jobqueue.py: jobSettings"]}
{"id": "C31", "title": "Option precedence for job settings", "statement": "The value used for a job setting is the value passed by the caller if given (even zero or empty), else the template default, else the environment value COSMOMC_key, else the built in default. The template default is the text between ##DEFAULT_key: and the last ## of the first line that has it.", "quantifier": "all settings and combinations of sources", "why_tests_cant": "Finite but easily broken branch logic including falsy values.", "anchors": ["python/paramgrid/jobqueue.py: getDefaulted"]}
{"id": "C32", "title": "Every requested run is submitted exactly once", "statement": "When submitting a batch with n runs per job, the concatenation of all submitted run lists equals the list of wanted runs in order; every job but the last has exactly n runs; combined into one job, all runs are in that job.", "quantifier": "all run lists and n >= 1, with and without combining into one job, whenever the job names can be formed: for n=1 always, otherwise when the joined names have fewer than 70 characters or the text can be hashed", "why_tests_cant": "Loop state (a module-level accumulator) over arbitrary lists.", "anchors": ["python/runbatch.py: submitJob, main loop"]}
{"id": "C33", "title": "Data combination tags do not depend on the order data sets were listed", "statement": "Two data combinations made of the same names in a different order have the same normalised tag and the same normalised name; different multisets of names have different tags. A run matches exactly the tags equal to its tag or normalised tag up to the place of the _post mark.", "quantifier": "all lists of data names without separators", "why_tests_cant": "Permutation invariance and injectivity over all lists.", "anchors": ["python/paramgrid/batchjob.py: dataSet.makeNormedDatatag, jobItem.makeNormedName, jobItem.matchesDatatag"]}
{"id": "C34", "title": "Grid generation yields each combination once", "statement": "Building a grid creates, in order, one run per (parameter set, data set) pair not excluded by the filters, plus its importance runs that apply, without the importance runs whose name already exists; no two runs have the same name when the inputs are distinct.", "quantifier": "all grid definitions, names without separators for the last part", "why_tests_cant": "Nested loops with skip lists and importance deduplication.", "anchors": ["python/paramgrid/batchjob.py: batchJob.makeItems, jobItem.makeImportance"]}
{"id": "C35", "title": "Batch filters select exactly the matching runs", "statement": "The items selected by the command line filters are exactly those of the grid satisfying the filters on importance, name, parameters, data and group, where a parameter tag replaces the parameter filters and a data tag the data filters; their order is kept; giving no filter selects everything.", "quantifier": "all grids and argument combinations", "why_tests_cant": "Combinations of optional filters with wildcard semantics.", "anchors": ["python/paramgrid/batchjob_args.py: batchArgs.jobItemWanted, nameMatches, groupMatches, dataMatches, paramsMatch, filteredBatchItems"]}
{"id": "C36", "title": "Name resolution is exact first, then unique up to data order", "statement": "Resolving a chain name returns the item with that exact name if any; otherwise the item whose normalised name equals the normalised query; it never returns an item with a different normalised name.", "quantifier": "all grids (generated or found in folders) and queries with data names without separators", "why_tests_cant": "Depends on the complete grid contents.", "anchors": ["python/paramgrid/batchjob.py: batchJob.resolveName, normed_name_item", "python/getdist/chain_grid.py: ChainDirGrid.resolve_root"]}
{"id": "C37", "title": "Generated settings follow the documented override order", "statement": "Every option of a generated run file has the value of the strongest source that gives it, in the order: settings of the data set, options of the job, common options, options and ranges of the parameters; its DEFAULT files are the override files, those of the data sets in order, the common files. Settings added at the end of a data set win over its other options.", "quantifier": "all grid definitions with plain settings", "why_tests_cant": "All overlaps among the option sources.", "anchors": ["python/paramgrid/gridconfig.py: makeGrid, updateIniParams"]}
{"id": "C38", "title": "Contour levels enclose the requested mass", "statement": "For a contour level computed for probability c from whole bins, the bins with density at or above the level hold more than c of the total (plus the missing mass given), and without the bins of the lowest density among them at most that; levels decrease as c increases; a level is found whenever the outermost bin alone does not exceed 1-c.", "quantifier": "all non-negative grid densities of any dimension, all c in (0,1), half_edge off", "why_tests_cant": "Sorted cumulative interpolation over arbitrary arrays with ties.", "anchors": ["python/getdist/densities.py: getContourLevels"]}
{"id": "C39", "title": "Trapezoid normalisation of densities", "statement": "The integral of a 1D or 2D density is that of the trapezoid rule, linear and non-negative; after normalising by integral it equals one; normalising by maximum makes the maximum one; normalising twice changes nothing.", "quantifier": "all 1D and 2D grids with at least two points and densities with positive integral", "why_tests_cant": "Algebra over all arrays.", "anchors": ["python/getdist/densities.py: GridDensity.normalize, Density1D.integrate, Density2D.integrate"]}
{"id": "C40", "title": "FFT size choice", "statement": "The chosen FFT length is at least the requested size and is the smallest supported one; a supported size is kept; requests larger than the table are refused.", "quantifier": "all requested sizes", "why_tests_cant": "Unbounded integers against a fixed table.", "anchors": ["python/getdist/convolve.py: nearestFFTnumber, fastFFT"]}
{"id": "C41", "title": "Convolution output sizes and alignment", "statement": "Convolution via padding returns the full, same and valid parts of the linear convolution with the sizes documented by the mode, independent of the FFT length chosen; the auto-convolution and auto-correlation and the Gaussian kernels are those of the formulas.", "quantifier": "all data and kernels (the kernel not longer than the data for mode same), modes, transforms that satisfy the definition of the discrete Fourier transform, caches whose entries are of the arrays in use", "why_tests_cant": "Slice index arithmetic and wrap-around for every length pair.", "anchors": ["python/getdist/convolve.py: convolve1D, convolveFFT, _centered"]}
{"id": "C42", "title": "Number formatting keeps the requested significant figures", "statement": "Formatting a number with n significant figures gives a decimal whose distance from the number is at most half a unit in the n-th significant digit, and the result has the number of digits requested.", "quantifier": "all decimals and n >= 1", "why_tests_cant": "Rounding carries (9.99 -> 10.0) for every value.", "anchors": ["python/getdist/types.py: NumberFormatter, numberFigs, float_to_decimal"]}
{"id": "C43", "title": "Result tables list every parameter exactly once", "statement": "A results table with any number of columns contains every parameter in exactly one cell, in column-major order.", "quantifier": "all parameter counts and column counts", "why_tests_cant": "Ceiling division layout for every size.", "anchors": ["python/getdist/types.py: ResultTable.__init__ row layout"]}
{"id": "C44", "title": "Cached chain analysis is only reused when valid", "statement": "A cached analysis is reused exactly if caching is on, it is newer than every chain file and was produced with the same version, burn-in and weight cut settings; otherwise the chains are read again. If files only change by being written anew and the limits settings are the same, the reused analysis is that of reading again.", "quantifier": "all file timestamps, settings and cache contents", "why_tests_cant": "Time and history dependent.", "anchors": ["python/getdist/mcsamples.py: loadMCSamples"]}
{"id": "C45", "title": "Histogram bin indices are always valid", "statement": "For every sample within the parameter range, the bin index on the grid used for densities is within the array, the bin's centre is within half a bin of the sample, samples at the limits are in the first and last bin, and total histogram mass equals total weight; the same for 2D histograms.", "quantifier": "all samples, ranges and bin counts >= 2", "why_tests_cant": "Edge values and rounding at range ends.", "anchors": ["python/getdist/mcsamples.py: MCSamples._binSamples", "python/getdist/kde_bandwidth.py: bin_samples"]}
{"id": "C46", "title": "Combining two samples gives each the stated total weight", "statement": "Combining with another sample set using normalised weights gives each input the requested share of the total weight, keeps all rows and aligns common parameters by name; the mean is the weighted mean of the means.", "quantifier": "all pairs of samples whose common parameters have names without dots", "why_tests_cant": "Algebra and index alignment for all name orders.", "anchors": ["python/getdist/mcsamples.py: MCSamples.getCombinedSamplesWithSamples"]}
{"id": "C47", "title": "Likelihood matrix packing is lossless", "statement": "Packing a symmetric matrix of cross-spectra to the vector of lower-triangle elements and unpacking gives the same matrix; unpacking always gives a symmetric matrix; the column index of a spectrum name pair is its position in the packed vector, independent of the order of the pair.", "quantifier": "all numbers of maps and all matrices", "why_tests_cant": "Triangular index arithmetic for every size.", "anchors": ["python/CMBlikes.py: DatasetLikelihood.elements_to_matrix, matrix_to_elements, UseString_to_cols"]}
{"id": "C48", "title": "Maps required only for corrections are not used in the likelihood", "statement": "Declaring additional required maps does not change which maps are used in the likelihood.", "quantifier": "all dataset settings", "why_tests_cant": "Depends on array aliasing that only shows when both settings are given.", "anchors": ["python/CMBlikes.py: DatasetLikelihood.readIni"]}
{"id": "C49", "title": "Saved limit types survive the table format", "statement": "The statistics file read back has the names, labels, means, limits and kind of marginalised limit (two tail, one tail upper/lower, none) written, for every parameter and limit.", "quantifier": "all limit kinds; names without blanks and final star, non-empty one-line labels, numbers of at most 14 characters, at least one parameter", "why_tests_cant": "Flag/tag encoding over all combinations.", "anchors": ["python/getdist/types.py: ParamLimit, MargeStats.loadFromFile", "python/getdist/mcsamples.py: MCSamples._setMargeLimits"]}
{"id": "C50", "title": "Copied chains with burn-in removed keep the tail of each chain file", "statement": "Copying chain files with a burn-in fraction writes exactly the last n - int(n*f) lines of each file unchanged, flags the copy as burn-in removed, and copies all numbered chain files up to the first gap.", "quantifier": "all chain files, fractions 0 <= f < 1, extensions that do not match the chain files, runs with burn-in still there", "why_tests_cant": "All lengths, including when everything is removed.", "anchors": ["python/copyGridFiles.py: doCopy, main loop"]}
{"id": "C51", "title": "An ini object keeps belonging to the file it was loaded from", "statement": "After loading a file, relative file names in its settings are resolved against the directory of that file, and saving without a name writes back to that file, whatever files it INCLUDEs or uses as DEFAULTs.", "quantifier": "all file trees", "why_tests_cant": "Only wrong after nested reads; depends on the last file of the tree that was read.", "anchors": ["python/getdist/inifile.py: IniFile.readFile, IniFile.relativeFileName, IniFile.saveFile"]}
{"id": "C52", "title": "Boolean settings survive saving and are never guessed", "statement": "A boolean stored under a name is read back as the same boolean after saving and loading; text that is neither empty nor starts with T or F is refused; empty or missing text gives the default, or an error if there is none.", "quantifier": "all tables, names, defaults and texts", "why_tests_cant": "All texts and defaults.", "anchors": ["python/getdist/inifile.py: IniFile.bool, IniFile.asType, IniFile.fileLines"]}
{"id": "C53", "title": "Updating aliases of a parameter list adds exactly the linked names", "statement": "If no two parameters of a list are declared aliases of each other, then after updating the aliases from a table every parameter keeps its position, name, label, comment and derived flag and its aliases are exactly the other names linked to it by any chain of old and new declarations.", "quantifier": "all parameter lists, rename tables, and all choices made by set.pop", "why_tests_cant": "Chains of arbitrary length through names that are not parameters; nondeterministic set order.", "anchors": ["python/getdist/paramnames.py: ParamList.updateRenames, ParamList.getRenames, mergeRenames"]}
{"id": "C54", "title": "Sublists of parameters keep order and exactly the requested entries", "statement": "Deleting indices keeps exactly the parameters at the other positions, in order; a filtered copy keeps, in order, exactly the parameters whose name is known to the other list by name or alias.", "quantifier": "all lists, index lists (including repeated and out of range) and reference lists", "why_tests_cant": "All index combinations.", "anchors": ["python/getdist/paramnames.py: ParamList.deleteIndices, ParamList.filteredCopy"]}
{"id": "C55", "title": "Merging renames in the default mode loses no alias declaration", "statement": "Merging without keep_names_1st returns every alias class with at least two names, keyed by a name from the left-most input.", "quantifier": "all finite collections of alias dictionaries", "why_tests_cant": "Only wrong when every name of a class is itself a key.", "anchors": ["python/getdist/paramnames.py: mergeRenames"]}
{"id": "C56", "title": "INCLUDE and DEFAULT lines name exactly the bracketed file", "statement": "The file read for an INCLUDE(..) or DEFAULT(..) line is the text between the first opening and the last closing bracket; when includes are kept they are recorded in order after those already known.", "quantifier": "all lines and file names (brackets in the name and trailing text included)", "why_tests_cant": "Names containing brackets and unclosed lines are not enumerated by tests.", "anchors": ["python/getdist/inifile.py: IniFile.readFile"]}
{"id": "C57", "title": "Chains stay apart through any history of operations", "statement": "For every sequence of combining, boolean filtering, weight cuts, weighted thinning, reweighting, cooling and burn-in removal (while separate), the separate chains at the end are those obtained by applying the same operations to each chain on its own.", "quantifier": "all chain lists and sequences of these operations", "why_tests_cant": "Boundary bookkeeping is spread over many methods and only fails for particular combinations.", "anchors": ["python/getdist/chains.py: Chains.makeSingle, filter, weighted_thin, thin, removeBurnFraction, loadChains, getSeparateChains"]}
{"id": "C58", "title": "Parameter lookup by name returns the right column, also after adding or removing parameters", "statement": "samples['name'] is the column of the parameter with that name; addDerived refuses a name already known (also as alias), leaves existing columns unchanged and makes the new vector retrievable under the new name.", "quantifier": "all sample matrices, name lists and derived vectors", "why_tests_cant": "Name list, index dictionary and sample columns are three parallel structures updated at different times.", "anchors": ["python/getdist/chains.py: Chains.addDerived, _makeParamvec, _getParamIndices, updateBaseStatistics"]}
{"id": "C59", "title": "Saved chains are found again under the same root", "statement": "Chains saved as text under a root are written to the files that chain loading selects for this root, chain i under number i+1, all in different files, with the parameter names written once beside them.", "quantifier": "all roots that do not end in .txt, all chain numbers", "why_tests_cant": "The writer builds names by concatenation and the reader parses directory listings with a regular expression.", "anchors": ["python/getdist/chains.py: WeightedSamples.saveAsText, Chains.saveAsText, chainFiles"]}
{"id": "C60", "title": "Burn-in is removed exactly once", "statement": "Reading chain files with ignore_rows=r removes from each chain the first int(r) rows (r>=1) or the fraction r of rows (r<1), once; nothing is removed from a chain marked burn_removed; a value in the chain's properties file replaces the general setting.", "quantifier": "all chains without rows of negligible weight (which are always dropped), settings and properties", "why_tests_cant": "The same setting is applied in the file reader, in readChains and in the script, depending on its size.", "anchors": ["python/getdist/mcsamples.py: _setBurnOptions, readChains", "python/getdist/chains.py: loadChains", "python/getdist/command_line.py: getdist_script"]}
{"id": "C61", "title": "Columns of sample files mean what the option says", "statement": "Reading a file with weights and likelihoods declared present gives the first two columns as weight and -log(like); read as plain samples, all columns are parameters; too few columns are refused; several files become separate chains.", "quantifier": "all files and options of the file reader", "why_tests_cant": "The option is passed through constructors that ignore it.", "anchors": ["python/getdist/chains.py: setColData, loadChains", "python/getdist/command_line.py: getdist_script"]}
{"id": "C62", "title": "Placeholders in job templates are replaced by their values", "statement": "Every placeholder ##NAME## of the template whose name has a value appears in the submitted script as that value; other text and unknown placeholders are unchanged; the result does not depend on the order of the values.", "quantifier": "all templates and all value dictionaries", "why_tests_cant": "Replacements are done one after another on the whole text, so values and neighbouring text can interact.", "anchors": ["python/paramgrid/jobqueue.py: replacePlaceholders, submitJob"]}
{"id": "C63", "title": "Only the requested jobs are cancelled", "statement": "Deleting jobs by id, job name or run name removes exactly those jobs from the index and cancels exactly those of them that are in the queue, each once; without confirmation nothing changes.", "quantifier": "all consistent indexes, selections and queue contents (deleteJobs, with the queue listing as text)", "why_tests_cant": "Needs a queue with many jobs and every combination of the selection options.", "anchors": ["python/paramgrid/jobqueue.py: deleteJobs", "python/deleteJobs.py"]}
{"id": "C64", "title": "Queued and running jobs are recognised", "statement": "The jobs reported as queued or running are exactly the jobs of the index that the queue program lists for the user with that status.", "quantifier": "all listings and indexes, the listing as text", "why_tests_cant": "Needs a queue system; the text depends on the python version (bytes and text).", "anchors": ["python/paramgrid/jobqueue.py: queue_job_details, queue_job_names"]}
{"id": "C65", "title": "Importance run tags list their data once and are marked once", "statement": "The tag of an importance run (also of one applied to another importance run) is the tag of all its data sets, those of the base run followed by the added ones, with a single _post mark before the added names; its normalised form equals that of a run of all these data sets.", "quantifier": "all base runs, nested importance runs and data set names that do not contain the mark, parameter tags starting with base", "why_tests_cant": "Tags are built by text surgery on the parent's tag; nesting and names containing the mark matter.", "anchors": ["python/paramgrid/batchjob.py: jobItem.makeImportance, dataSet.makeNormedDatatag, jobItem.makeNormedName"]}
{"id": "C66", "title": "Every chain found in folders keeps a name of its own", "statement": "When chains of the same root name are found in several folders, each of them gets a different name made of its last folders and its root name, by which it can be looked up; chains with a unique root name keep it.", "quantifier": "all sets of folders and chain roots", "why_tests_cant": "Names are chosen by comparing paths from the end until they differ, over any number of chains and folder depths.", "anchors": ["python/getdist/chain_grid.py: ChainDirGrid, _make_unique, resolveRoot"]}
{"id": "C67", "title": "Equal-density limits of a 1D density", "statement": "The equal-density limits at a level are the two outermost places where the interpolated density crosses the level, or the grid end (flagged) where the density there is still above it; an array of probabilities gives one result for each.", "quantifier": "all densities, spacings, interpolation factors and levels below the maximum that the search finds", "why_tests_cant": "Depends on sorted cumulative sums and argmax index arithmetic for every shape of density.", "anchors": ["python/getdist/densities.py: Density1D.getLimits, initLimitGrids"]}
{"id": "C68", "title": "Hard prior limits do not bias a 1D density", "statement": "A 1D density computed from samples with hard limits is exact for a flat density with any boundary correction order, and the order-one and order-two corrections reproduce linear and quadratic densities up to the limits (before the softening that keeps them positive); without limits the second order kernel reproduces densities up to third degree away from the ends; the density lies between zero and one with maximum one and does not depend on the scale of the weights.", "quantifier": "all grids of at least eight bins, positive kernels, smoothing scales, limits, weights and numbers of bias-correction rounds", "why_tests_cant": "The formulas are ratios of moments of masked windows; a test only sees noisy samples.", "anchors": ["python/getdist/mcsamples.py: get1DDensityGridData, _get1DNeff; python/getdist/kde_bandwidth.py"]}
{"id": "C69", "title": "Reported parameter bounds", "statement": "Once the range of a parameter has been determined, getBounds reports a lower or upper bound exactly when it has a hard limit there and the samples come within the smoothing scale of it; determining the range again changes nothing.", "quantifier": "all limits, sample ranges, smoothing scales", "why_tests_cant": "The answer is a side effect of computing densities, so it depends on the order of calls.", "anchors": ["python/getdist/mcsamples.py: _initParam, _initLimits, getBounds"]}
{"id": "C70", "title": "A value with errors is printed with the decimals of its error", "statement": "namesigFigs prints a value and its upper and lower errors with the same number of decimals, set by the requested significant figures of the errors, and the printed value differs from the value by at most half a unit of the last printed decimal.", "quantifier": "all values, errors and numbers of figures", "why_tests_cant": "Three interacting rounding loops whose results depend on carries.", "anchors": ["python/getdist/types.py: NumberFormatter.namesigFigs, plusMinusLimit, formatNumber, decimalPlaces"]}
{"id": "C71", "title": "All rows of a result table have the same number of cells", "statement": "Every row of a results table, including short last rows, has as many cells as the header, for any set of results that can be given; options change what is printed.", "quantifier": "all lists of results, columns, parameters with or without values", "why_tests_cant": "Depends on separators added by five functions for every combination of results.", "anchors": ["python/getdist/types.py: ResultTable.addFullTableRow, paramResultTex, addHeaderRow, BestFit.texValues"]}
{"id": "C72", "title": "Marginalised limits are of the kind asked for", "statement": "The limits computed for a parameter are two tail limits (equal tails, or equal density when the densities differ), one tail limits reaching to the end of the range, or no limit, as tagged; each kind is chosen exactly under its conditions.", "quantifier": "all densities, sample confidence functions, contours, settings", "why_tests_cant": "Flags computed from three sources are overwritten in one branch only.", "anchors": ["python/getdist/mcsamples.py: MCSamples._setMargeLimits"]}
{"id": "C73", "title": "Parameter objects hold the samples of every name", "statement": "getParams gives an object where the samples of parameter aa.bb are obj.aa.bb, and obj.aa.value for a parameter aa with other parameters below it; every parameter can be reached.", "quantifier": "all sets of distinct dotted names without the part value after the first, in any order", "why_tests_cant": "Depends on prefixes between all pairs of names.", "anchors": ["python/getdist/chains.py: Chains.setParams, getParams"]}
{"id": "C74", "title": "Gaussian band power chi-squared is theory minus data", "statement": "For a binned Gaussian dataset, chi_squared is the quadratic form of (windowed theory minus measured band powers) with the inverse of the covariance block of the used bins and spectra. Each spectrum uses the theory of its two fields, corrected for aberration and divided by the square of the calibration.", "quantifier": "all maps, windows, bins, covariances, theory spectra, calibrations; band powers without noise; windows for required maps; at least three multipoles for aberration", "why_tests_cant": "The result is one number; a test at one point cannot show which terms enter with which index.", "anchors": ["python/CMBlikes.py: DatasetLikelihood.chi_squared, get_binned_map_cls, get_theory_map_cls, ReadCovmat, readIni; BinWindows.bin"]}
{"id": "C75", "title": "Spectra are read from the columns with their names", "statement": "Each spectrum of a .dataset number file is read from the column with the name of its two maps, in either order, and from the row of its bin or multipole.", "quantifier": "all column orders and files with each column and bin once, at least two bins", "why_tests_cant": "Every permutation of columns and every set of used maps.", "anchors": ["python/CMBlikes.py: DatasetLikelihood.ReadClArr, GetColsFromOrder"]}
{"id": "C76", "title": "Exact likelihood is zero only for agreement", "statement": "exact_chi_sq of positive definite matrices is never negative, and is zero exactly when theory and data matrices are equal, for any number of maps.", "quantifier": "all positive definite theory and data matrices", "why_tests_cant": "A statement on all matrices.", "anchors": ["python/CMBlikes.py: DatasetLikelihood.exact_chi_sq"]}
{"id": "C77", "title": "HL transform does not depend on the eigenvectors", "statement": "The Hamimeche-Lewis transform gives Cf^1/2 g(C^-1/2 Chat C^-1/2) Cf^1/2 whatever eigenvectors the linear algebra library returns, also for one map; it is symmetric, and zero exactly when data and theory agree.", "quantifier": "all positive definite matrices and all valid eigendecompositions", "why_tests_cant": "Eigenvectors are not unique; a test sees one library.", "anchors": ["python/CMBlikes.py: DatasetLikelihood.transform"]}
{"id": "C78", "title": "Cleaning up removes only files of the selected runs", "statement": "cleanup removes nothing without --confirm. With it, exactly those files directly in the chain and dist directories of each selected run are removed whose names match the run name and the extensions (and chain number).", "quantifier": "all directory contents, run names, extensions", "why_tests_cant": "Which names a wildcard pattern catches depends on all other run names in the directory.", "anchors": ["python/cleanup.py"]}
{"id": "C79", "title": "Chain files of a run are found and judged by number and date", "statement": "chainNames lists the chains of a run from 1 up to the first missing or empty one. Chains count as stuck if two were last written more than the interval apart, or a single one is missing. A run has finished if its status file says Done; an importance run if its parent has, it is not older than the parent's chain and it has not been written for five minutes.", "quantifier": "all directory contents, dates, run names with at least one chain", "why_tests_cant": "Depends on which of unboundedly many numbered files exist and on dates of several files.", "anchors": ["python/paramgrid/batchjob.py: jobItem.chainNames, chainsDodgy, notRunning, convergeStat, chainFinished, wantCheckpointContinue"]}
{"id": "C80", "title": "Results older than the chains are recomputed", "statement": "getDistNeedsUpdate is true exactly if the run has samples and its statistics are missing or older than some chain file; parentChanged is true exactly if an importance run is missing or older than its parent.", "quantifier": "all directory contents and dates", "why_tests_cant": "Every order of modification of several files.", "anchors": ["python/paramgrid/batchjob.py: jobItem.getDistNeedsUpdate, parentChanged"]}
{"id": "C81", "title": "The convergence value of a run is read back as written", "statement": "The value R of a run read from its .converge file is the largest eigenvalue written by getConvergeTests, to the printed precision, and a run counts as converged only if R was computed and is at most the limit; checkConverge lists as not converged exactly the runs with chains and a value above the limit.", "quantifier": "all lists of eigenvalues, limits, other lines that do not contain the headings; for checkConverge runs with a readable value", "why_tests_cant": "Depends on a text file with parts that may be absent and columns that may run together.", "anchors": ["python/getdist/types.py: ConvergeStats", "python/getdist/mcsamples.py: getConvergeTests", "python/paramgrid/batchjob.py: jobItem.R, hasConvergeBetterThan", "python/checkConverge.py"]}
{"id": "C82", "title": "Runs submitted are those that satisfy all options", "statement": "runbatch submits exactly the runs that satisfy each of the options given (not existing, not converged, parent converged, checkpoint to continue, importance ready or changed, parent stopped, chains exist).", "quantifier": "all combinations of options, directory contents, dates, runs whose status files can be read", "why_tests_cant": "A nested condition over twelve options and a dozen file states.", "anchors": ["python/runbatch.py: main loop"]}
{"id": "C83", "title": "The convergence value is the worst ratio over all directions", "statement": "For two or more chains with positive weight, getGelmanRubinEigenvalues returns in increasing order the ratios of the variance of the chain means to the mean variance, for combinations of the parameters uncorrelated in both; they do not depend on the eigenvectors the linear algebra library returns, nor on units, zero points or linear recombination of the parameters. The largest, getGelmanRubin, is the largest ratio over all combinations, is never negative, and is zero exactly if all chains have the same means. None is returned exactly if some combination is constant within every chain.", "quantifier": "all chains, weights, numbers of parameters, valid eigendecompositions, invertible linear maps", "why_tests_cant": "Eigenvectors are not unique and directions are infinitely many.", "anchors": ["python/getdist/chains.py: Chains.getGelmanRubinEigenvalues, getGelmanRubin"]}
{"id": "C84", "title": "Correlation lengths and effective sample numbers are as documented", "statement": "getAutocorrelation gives the mean product of weighted differences at each distance of the range given; getCorrelationLength sums it until it first falls below the threshold; effective sample numbers do not depend on units, zero points or the normalisation of the weights and lie between zero and the number of rows.", "quantifier": "all samples of at least ten rows, weights, thresholds, ranges", "why_tests_cant": "Depends on thresholds being crossed, on window lengths and loops with data dependent steps.", "anchors": ["python/getdist/chains.py: WeightedSamples.getAutocorrelation, getCorrelationLength, getEffectiveSamples, getEffectiveSamplesGaussianKDE, getEffectiveSamplesGaussianKDE_2d"]}
{"id": "C85", "title": "Comments in DEFAULT files belong to the setting they precede", "statement": "The comment lines stored for a setting that comes from a DEFAULT file are exactly those that directly precede it in that file.", "quantifier": "all files and DEFAULT files", "why_tests_cant": "Only goes wrong when a skipped duplicate sits between a comment and the next setting (DEFAULT files); this history dependence is not sampled by tests.", "anchors": ["python/getdist/inifile.py: IniFile.readFile"]}
{"id": "C86", "title": "Chain boundaries stay right under the other operations on combined chains", "statement": "Plain thinning, burn-in removal after combining, filtering by a list of indices and loading a new array keep the recorded chain boundaries consistent with the rows.", "quantifier": "all combined chains and these four operations", "why_tests_cant": "Per-chain lengths vary arbitrarily; the combined case changes offsets.", "anchors": ["python/getdist/chains.py: Chains.removeBurnFraction, WeightedSamples.removeBurn", "python/getdist/chains.py: Chains.makeSingle, filter, weighted_thin, thin, removeBurnFraction, loadChains, getSeparateChains"]}
{"id": "C87", "title": "Dropping fixed parameters from separate chains loses no varying data", "statement": "After removing fixed parameters from separate chains, column i is still the data of parameter name i, and every removed column was constant over all chains.", "quantifier": "all chain lists and name lists", "why_tests_cant": "Index deletion from several parallel structures; separate chains may differ in what is fixed.", "anchors": ["python/getdist/chains.py: Chains.deleteFixedParams, WeightedSamples.deleteFixedParams, ParamList.deleteIndices"]}
{"id": "C88", "title": "Chain file selection works for every root and never takes another root's file", "statement": "Chain files are also found for a root without directory and for roots given with leading directories; no file of a different root whose name merely starts with the root is included.", "quantifier": "all directory listings and roots", "why_tests_cant": "Filename patterns over arbitrary directory contents.", "anchors": ["python/getdist/chains.py: chainFiles, hasChainFiles"]}
{"id": "C89", "title": "Covariance matrices of any size can be read back, merged and used", "statement": "A covariance matrix of any number of parameters can be written and read back; a merged matrix supports the same operations as a loaded one (its correlations are at most one); covcomb takes every entry from the first file that has both parameters.", "quantifier": "all covariance matrices", "why_tests_cant": "Index mapping between two arbitrary name orders.", "anchors": ["python/getdist/covmat.py: CovMat.mergeCovmatWhereNew", "python/getdist/covcomb.py", "python/getdist/covmat.py: CovMat.loadFromFile, saveToFile, rescaleParameter"]}
{"id": "C90", "title": "Ranges can be widened, unset and stored without becoming fixed values", "statement": "Giving no bound for a side removes an earlier bound; a fixed value is reported only when both bounds coincide; a range that is written to a file is still a range when read, whatever the name of the parameter.", "quantifier": "all names, ranges and histories of updates", "why_tests_cant": "Text format with a magic N token and whitespace splitting; every name and side combination.", "anchors": ["python/getdist/parampriors.py: ParamBounds.setRange, __str__, saveToFile, loadFromFile", "python/getdist/parampriors.py: ParamBounds.setRange, getLower, getUpper, fixedValue"]}
{"id": "C91", "title": "Senseless resource requests are refused and consistent ones accepted", "statement": "Requests for no nodes, no cores or chains without a thread are refused; asking only for a number of cores per node gives chains that fit it.", "quantifier": "all core counts and option combinations", "why_tests_cant": "Integer division logic over all inputs.", "anchors": ["python/paramgrid/jobqueue.py: jobSettings"]}
{"id": "C92", "title": "Option precedence for every job option, however given", "statement": "The order command line, template, environment, default also holds for runsPerJob given through the command line parser and for an additional environment variable; several template defaults can stand on one line.", "quantifier": "all combinations of sources", "why_tests_cant": "Finite but easily broken branch logic including falsy values.", "anchors": ["python/paramgrid/jobqueue.py: getDefaulted"]}
{"id": "C93", "title": "Every batch can be submitted, under job names of its own", "statement": "Batches with long run names can be submitted under every python version; different jobs of a batch get different names; only the extension is removed from the run file names.", "quantifier": "all run lists and n >= 2, python 2 and 3", "why_tests_cant": "Loop state (a module-level accumulator) over arbitrary lists.", "anchors": ["python/runbatch.py: submitJob, main loop"]}
{"id": "C94", "title": "Data combinations match whatever the order and spelling of the names", "statement": "Data combinations given in another order match; different combinations have different tags also when names contain separators or a tag contains a run prefix.", "quantifier": "all lists of data names", "why_tests_cant": "Permutation invariance and injectivity over all lists.", "anchors": ["python/paramgrid/batchjob.py: dataSet.makeNormedDatatag, jobItem.makeNormedName, jobItem.matchesDatatag"]}
{"id": "C95", "title": "Grid generation loses no importance run", "statement": "Every importance run requested is created or is the same as a run that is created, also for importance runs applied to importance runs.", "quantifier": "all grid definitions", "why_tests_cant": "Nested loops with skip lists and importance deduplication.", "anchors": ["python/paramgrid/batchjob.py: batchJob.makeItems, jobItem.makeImportance"]}
{"id": "C96", "title": "Batch filters can be combined freely", "statement": "The items selected satisfy every filter given.", "quantifier": "all grids and argument combinations", "why_tests_cant": "Combinations of optional filters with wildcard semantics.", "anchors": ["python/paramgrid/batchjob_args.py: batchArgs.jobItemWanted, nameMatches, groupMatches, dataMatches, paramsMatch, filteredBatchItems"]}
{"id": "C97", "title": "Name resolution works for names with underscores and in every lookup", "statement": "Names are resolved up to data order also when data names contain underscores, and in the second lookup of resolveRoot.", "quantifier": "all grids and queries", "why_tests_cant": "Depends on the complete grid contents.", "anchors": ["python/paramgrid/batchjob.py: batchJob.resolveName, normed_name_item", "python/getdist/chain_grid.py: ChainDirGrid.resolve_root"]}
{"id": "C98", "title": "The options of a job win over those of its data", "statement": "For every option of a generated run file the options of the job win over those of the data set, where it writes is set by the grid, and settings added to a data set so as to override do so.", "quantifier": "all grid definitions", "why_tests_cant": "All overlaps among the option sources.", "anchors": ["python/paramgrid/gridconfig.py: makeGrid, updateIniParams"]}
{"id": "C99", "title": "Contour levels with half weights for edge bins and mass outside the grid", "statement": "With half weights for the edge bins (the default) levels decrease as c increases and enclose c of the mass of the trapezoid rule; with mass outside the grid they enclose c of the total mass.", "quantifier": "all grid densities with positive mass and all c in (0,1)", "why_tests_cant": "Sorted cumulative interpolation over arbitrary arrays with ties.", "anchors": ["python/getdist/densities.py: getContourLevels"]}
{"id": "C100", "title": "Trapezoid normalisation in any number of dimensions", "statement": "The integral of a density in n dimensions is that of the trapezoid rule, and after normalising it equals one.", "quantifier": "all grids and dimensions", "why_tests_cant": "Algebra over all arrays.", "anchors": ["python/getdist/densities.py: GridDensity.normalize, Density1D.integrate, Density2D.integrate"]}
{"id": "C101", "title": "FFT lengths are products of small primes", "statement": "Every length in the table is a product of the primes 2, 3 and 5.", "quantifier": "all table entries", "why_tests_cant": "Unbounded integers against a fixed table.", "anchors": ["python/getdist/convolve.py: nearestFFTnumber, fastFFT"]}
{"id": "C102", "title": "Convolution is right for all lengths and independent of its cache", "statement": "The convolution has the size of the data also for longer kernels and is not affected by what was computed before with the same cache; narrow truncated Gaussians leave the data in place; the cosine transform version works without cache.", "quantifier": "all input lengths, kernels, histories of calls with one cache", "why_tests_cant": "Slice index arithmetic and wrap-around for every length pair.", "anchors": ["python/getdist/convolve.py: convolve1D, convolveFFT, _centered"]}
{"id": "C103", "title": "A cached analysis always equals reading the chains again", "statement": "Loading with a cache gives the same samples and ranges as loading without.", "quantifier": "all changes of files and settings between the loads", "why_tests_cant": "Time and history dependent.", "anchors": ["python/getdist/mcsamples.py: loadMCSamples"]}
{"id": "C104", "title": "Bins of the bandwidth estimate are centred on the samples", "statement": "The binning used for the bandwidth estimate puts each sample in the bin whose centre is nearest, and accepts the limits of the density.", "quantifier": "all samples, ranges and bin counts >= 2", "why_tests_cant": "Edge values and rounding at range ends.", "anchors": ["python/getdist/mcsamples.py: MCSamples._binSamples", "python/getdist/kde_bandwidth.py: bin_samples"]}
{"id": "C105", "title": "Dotted parameter names can be used everywhere", "statement": "Samples with dotted parameter names can be combined, and parameter objects give the samples of every name.", "quantifier": "all sets of dotted names", "why_tests_cant": "Algebra and index alignment for all name orders.", "anchors": ["python/getdist/mcsamples.py: MCSamples.getCombinedSamplesWithSamples", "python/getdist/chains.py: Chains.setParams, getParams"]}
{"id": "C106", "title": "Statistics files work for every label and parameter list", "statement": "The statistics file is written and read back also with empty labels and without parameters.", "quantifier": "all parameter lists", "why_tests_cant": "Flag/tag encoding over all combinations.", "anchors": ["python/getdist/types.py: ParamLimit, MargeStats.loadFromFile", "python/getdist/mcsamples.py: MCSamples._setMargeLimits"]}
{"id": "C107", "title": "Copying never loses or duplicates burn-in removal", "statement": "Copied chains have the burn-in removed once, whatever the fraction, the extensions copied and the state of the run.", "quantifier": "all chain files, fractions, extensions", "why_tests_cant": "All lengths, including when everything is removed.", "anchors": ["python/copyGridFiles.py: doCopy, main loop"]}
{"id": "C108", "title": "Chains saved under a name ending in .txt are found again", "statement": "Chains saved as text under a root ending in .txt are selected by chain loading for that root.", "quantifier": "all such roots", "why_tests_cant": "The writer builds names by concatenation and the reader parses directory listings with a regular expression.", "anchors": ["python/getdist/chains.py: WeightedSamples.saveAsText, Chains.saveAsText, chainFiles"]}
{"id": "C109", "title": "The command line tool removes burn-in exactly once", "statement": "The command line tool removes the burn-in of the settings once, and none from a chain marked burn_removed.", "quantifier": "all chains, settings and properties", "why_tests_cant": "The same setting is applied in the file reader, in readChains and in the script, depending on its size.", "anchors": ["python/getdist/mcsamples.py: _setBurnOptions, readChains", "python/getdist/chains.py: loadChains", "python/getdist/command_line.py: getdist_script"]}
{"id": "C110", "title": "loadChains passes on what the columns mean", "statement": "With files_are_chains=False loadChains reads all columns as parameters.", "quantifier": "all files", "why_tests_cant": "The option is passed through constructors that ignore it.", "anchors": ["python/getdist/chains.py: setColData, loadChains", "python/getdist/command_line.py: getdist_script"]}
{"id": "C111", "title": "The job scripts cancel and list the right jobs under every python version", "statement": "The script deletes exactly the jobs asked for by id or range of ids; queued jobs are recognised and cancelled under python 2 and 3.", "quantifier": "all indexes, selections, queue contents, python versions supported", "why_tests_cant": "Needs a queue with many jobs and every combination of the selection options.", "anchors": ["python/paramgrid/jobqueue.py: deleteJobs", "python/deleteJobs.py", "python/paramgrid/jobqueue.py: queue_job_details, queue_job_names"]}
{"id": "C112", "title": "Importance runs keep all of the parameter tag", "statement": "The normalised name of an importance run contains its whole parameter tag.", "quantifier": "all base runs and parameter tags", "why_tests_cant": "Tags are built by text surgery on the parent's tag; nesting and names containing the mark matter.", "anchors": ["python/paramgrid/batchjob.py: jobItem.makeImportance, dataSet.makeNormedDatatag, jobItem.makeNormedName"]}
{"id": "C113", "title": "Equal-density limits exist and are nested", "statement": "A larger probability never gives a narrower interval; a sequence of probabilities gives one result for each; limits are found for every probability in (0,1).", "quantifier": "all densities, spacings, interpolation factors and probabilities", "why_tests_cant": "Depends on sorted cumulative sums and argmax index arithmetic for every shape of density.", "anchors": ["python/getdist/densities.py: Density1D.getLimits, initLimitGrids"]}
{"id": "C114", "title": "Hard prior limits do not bias a 1D density on a coarse grid", "statement": "The corrections for hard limits also work for grids of fewer than eight bins.", "quantifier": "all grids of two to seven bins", "why_tests_cant": "The formulas are ratios of moments of masked windows; a test only sees noisy samples.", "anchors": ["python/getdist/mcsamples.py: get1DDensityGridData, _get1DNeff; python/getdist/kde_bandwidth.py"]}
{"id": "C115", "title": "Reported parameter bounds do not depend on what was computed before", "statement": "getBounds reports the same bounds before and after densities are computed.", "quantifier": "all limits, sample ranges and call orders", "why_tests_cant": "The answer is a side effect of computing densities, so it depends on the order of calls.", "anchors": ["python/getdist/mcsamples.py: _initParam, _initLimits, getBounds"]}
{"id": "C116", "title": "Settings for two tail limits are obeyed", "statement": "With force_twotail, or without a hard prior limit where the density is high, the limits are two tail limits.", "quantifier": "all densities, sample confidence functions, contours, settings", "why_tests_cant": "Flags computed from three sources are overwritten in one branch only.", "anchors": ["python/getdist/mcsamples.py: MCSamples._setMargeLimits"]}
{"id": "C117", "title": "Datasets of any form are used correctly or rejected", "statement": "When the measured band powers include noise, the noise is removed once; windows of maps that are not used have no effect; one bin, or two multipoles with aberration, are enough; a file with a missing line, a missing window or two columns for one spectrum is rejected.", "quantifier": "all dataset settings and files", "why_tests_cant": "The result is one number; a test at one point cannot show which terms enter with which index.", "anchors": ["python/CMBlikes.py: DatasetLikelihood.chi_squared, get_binned_map_cls, get_theory_map_cls, ReadCovmat, readIni; BinWindows.bin", "python/CMBlikes.py: DatasetLikelihood.ReadClArr, GetColsFromOrder"]}
{"id": "C118", "title": "Cleaning up spares the importance sampled versions of a run", "statement": "With the default extensions the files of other runs stay.", "quantifier": "all directory contents, run names", "why_tests_cant": "Which names a wildcard pattern catches depends on all other run names in the directory.", "anchors": ["python/cleanup.py"]}
{"id": "C119", "title": "Chains are counted from one and gaps are always noticed", "statement": "A given number of chains gives that many from 1; chains count as stuck whenever one is missing between others; a run without chains is not stuck.", "quantifier": "all directory contents and numbers", "why_tests_cant": "Depends on which of unboundedly many numbered files exist and on dates of several files.", "anchors": ["python/paramgrid/batchjob.py: jobItem.chainNames, chainsDodgy, notRunning, convergeStat, chainFinished, wantCheckpointContinue"]}
{"id": "C120", "title": "Runs of unknown convergence are listed and submitted", "statement": "checkConverge lists every run that is not known to have converged; with a convergence limit such runs are submitted; importance runs are submitted only if their parent has samples; a .converge file can be read with any tests and labels.", "quantifier": "all directory contents, runs, options", "why_tests_cant": "Depends on a text file with parts that may be absent and columns that may run together.", "anchors": ["python/getdist/types.py: ConvergeStats", "python/getdist/mcsamples.py: getConvergeTests", "python/paramgrid/batchjob.py: jobItem.R, hasConvergeBetterThan", "python/checkConverge.py", "python/runbatch.py: main loop"]}
{"id": "C121", "title": "Correlation lengths have sensible defaults and limits", "statement": "The default range is all distances; correlations that never fall below the threshold give a long correlation length; effective sample numbers are defined for any number of rows and count every distance fully.", "quantifier": "all samples", "why_tests_cant": "Depends on thresholds being crossed, on window lengths and loops with data dependent steps.", "anchors": ["python/getdist/chains.py: WeightedSamples.getAutocorrelation, getCorrelationLength, getEffectiveSamples, getEffectiveSamplesGaussianKDE, getEffectiveSamplesGaussianKDE_2d"]}
{"id": "C122", "title": "Best-fit files are read as they are written", "statement": "A .minimum best-fit file is read as it shows: log-likelihood (and weight if given), parameters in order with number, value, name and label and whether they are fixed or derived, chi-squared contributions with kind, name and value; a file that does not begin with the likelihood is refused. The parameter dictionary gives each parameter's value under its name; the contributions by kind list each kind once with its contributions in file order, and a lookup by kind and name gives the first of them; adding best-fit values to marginalised statistics keeps exactly the parameters the best fit has, each with its value.", "quantifier": "all best-fit texts of the documented layout with any spacing, all numbers of parameters and contributions", "why_tests_cant": "Layout sections, spacing, optional tags and repeated names combine without bound.", "anchors": ["python/getdist/types.py: BestFit.loadFromFile, getParamDict, sortedChiSquareds, chiSquareForKindName; MargeStats.addBestFit"]}
{"id": "C123", "title": "Best-fit files: every parameter line and contribution is found again", "statement": "Parameter lines without a label and contributions without a kind are read and found by name like the others; only derived parameters are flagged as derived.", "quantifier": "all best-fit texts", "why_tests_cant": "Depends on which optional parts a line has.", "anchors": ["python/getdist/types.py: BestFit.loadFromFile, getParamDict, chiSquareForKindName"]}
{"id": "C124", "title": "Likelihood statistics are ordered, nested and survive writing", "statement": "For every weighted sample the best likelihood, minus log mean likelihood, mean minus log likelihood and log mean inverse likelihood are in this order and the complexity is not negative; the N-dimensional region for a fraction consists of the most likely rows, as many as hold less than the fraction, the next row reaching it; the limits of a parameter are its extremes over the region, and a larger fraction has wider limits; the summary text is read back to the printed digits.", "quantifier": "all samples, weights, fractions, statistics", "why_tests_cant": "Inequalities over all weighted samples; sorting and cumulative sums with ties.", "anchors": ["python/getdist/mcsamples.py: MCSamples.getLikeStats, python/getdist/types.py: LikeStats.likeSummary, loadFromFile"]}
{"id": "C125", "title": "Likelihood statistics: N-dimensional region always exists and holds its fraction; summary loses nothing", "statement": "The N-dimensional region of every sample holds at least its fraction and has limits; every statistic set on a LikeStats is written in its summary.", "quantifier": "all samples and statistics", "why_tests_cant": "Only wrong for samples dominated by one row, or for particular values.", "anchors": ["python/getdist/mcsamples.py: MCSamples.getLikeStats, python/getdist/types.py: LikeStats.likeSummary"]}
{"id": "C126", "title": "Two-dimensional densities: range, exactness at limits and symmetries", "statement": "The density of a pair of parameters from any histogram with samples lies between zero and one, has maximum one and is positive where there are samples. Samples of a flat density between hard limits give exactly one everywhere including edges and corners, for both boundary corrections and any number of rounds of bias correction; for a density that is a plane the linear correction uses its exact value at the limits. Exchanging the parameters exchanges the axes, reversing one mirrors the density, multiplying all weights leaves it unchanged (without bias correction, or without samples where the estimate is negligible). Smoothing is a normalised Gaussian of the given widths and correlation; widths do not depend on bins, the grid is not coarser than asked for and has at most 960 bins unless more are asked for; strongly degenerate pairs are transformed to uncorrelated variables that keep the limited one.", "quantifier": "all histograms, grid sizes, widths, correlations, combinations of hard limits, correction orders and rounds, exact arithmetic, any convolution equal to the linear one", "why_tests_cant": "Statements over all histograms and windows; equalities up to and including the edge.", "anchors": ["python/getdist/mcsamples.py: MCSamples.get2DDensityGridData, _setEdgeMask2D, getAutoBandwidth2D"]}
{"id": "C127", "title": "Two-dimensional densities: settings are honoured and weights have no scale", "statement": "The density does not depend on the overall scale of the weights; reversing a parameter does not change the choice of bandwidth; correction orders accepted in one dimension are accepted in two; max_corr_2D below one is enforced and bounds the correlation of the kernel, so that fully correlated parameters have a density; little smoothing leaves boundary corrections in place.", "quantifier": "all histograms and settings", "why_tests_cant": "Only wrong for sparse tails, particular signs or tiny windows.", "anchors": ["python/getdist/mcsamples.py: MCSamples.get2DDensityGridData, _setEdgeMask2D, getAutoBandwidth2D"]}
{"id": "C128", "title": "Weight-one samples are chosen in proportion to weight", "statement": "Choosing samples at random by weight returns row indices in order, each at most once; for numbers uniform on [0,1) and a factor of at least one, a row is chosen with probability its weight over the heaviest weight over the factor, and the mean number chosen is the total over the heaviest over the factor; asked for at most c samples, the mean is the smaller of c and the number available. A row of the heaviest weight is always chosen without thinning, unit weights choose every row. With the same random numbers the written file and the returned array hold the same rows; reading the file gives weight one, likelihood and parameters to eight figures. Cooled output weights are exp((L-max L)(1-T)).", "quantifier": "all weights, random numbers, factors, sample arrays, any probability space", "why_tests_cant": "A distributional statement over all random numbers; tests see single draws.", "anchors": ["python/getdist/chains.py: WeightedSamples.random_single_samples_indices", "python/getdist/mcsamples.py: MCSamples.makeSingleSamples, writeThinData"]}
{"id": "C129", "title": "Weight-one samples: zero weights, any factor, missing likelihoods, thinned files", "statement": "A row of weight zero is never chosen; choices are proportional to weight for every positive factor; the file of weight-one samples can be written whenever the array can be returned; the thinned file holds one line per selected row, with that row's parameters and readable numbers.", "quantifier": "all samples, random numbers, factors and index lists", "why_tests_cant": "Only wrong for particular draws, or visible only by reading the file back.", "anchors": ["python/getdist/chains.py: WeightedSamples.random_single_samples_indices", "python/getdist/mcsamples.py: MCSamples.makeSingleSamples, writeThinData"]}
{"id": "C130", "title": "Splits of the samples have equal weight and cover all rows", "statement": "The boundaries for a split into n parts are in order from the first row to the last; the parts are consecutive, disjoint and together all rows; the weight of each part is the n-th part of the total up to the heaviest weight. If no row holds the n-th part, the split test is the root mean square difference between the quantile of the parts and that of all samples, in standard deviations, and it vanishes if all parts have the same quantile.", "quantifier": "all non-negative weights, samples, numbers of parts, probabilities", "why_tests_cant": "Cumulative sums with ties and boundaries for every n.", "anchors": ["python/getdist/mcsamples.py: MCSamples.getFractionIndices, getConvergeTests (SplitTest)"]}
{"id": "C131", "title": "Splits of the samples: any weights, heavy rows", "statement": "Weights given to the function are split into equal parts; the split test gives a result for every weighted sample.", "quantifier": "all weights", "why_tests_cant": "Only wrong for weights other than those stored, or if one row is heavy.", "anchors": ["python/getdist/mcsamples.py: MCSamples.getFractionIndices, getConvergeTests (SplitTest)"]}
{"id": "C132", "title": "The most correlated pairs are listed strongest first", "statement": "The pairs listed for plots are pairs of different parameters below the number asked for, of strictly falling strength of correlation and none twice, at most as many as asked for; a pair left out has the strength of a listed pair, or the list is full and it is weaker than all listed. If no two pairs are equally correlated, the list is exactly the strongest pairs.", "quantifier": "all correlation matrices, numbers of parameters and plots", "why_tests_cant": "A ranking over all matrices.", "anchors": ["python/getdist/mcsamples.py: MCSamples.getCorrelatedVariable2DPlots"]}
{"id": "C133", "title": "The most correlated pairs: ties and order of calls", "statement": "Pairs with equal correlation are all listed, and the list can be made at any time after loading.", "quantifier": "all correlation matrices", "why_tests_cant": "Only wrong for ties, or for a particular order of calls.", "anchors": ["python/getdist/mcsamples.py: MCSamples.getCorrelatedVariable2DPlots"]}
{"id": "C134", "title": "Numbers of effective samples are ordered", "statement": "For all non-negative weights, one is at most the equivalent number of single samples, which is at most the effective number of weighted samples, which is at most the number of rows; neither depends on the normalisation of the weights, and for unit weights both are the number of rows. The number of rows reported as outliers is below 500 and below half of the rows.", "quantifier": "all weights", "why_tests_cant": "Inequalities over all weights.", "anchors": ["python/getdist/mcsamples.py: MCSamples.getNumSampleSummaryText, updateBaseStatistics"]}
{"id": "C135", "title": "The Raftery-Lewis convergence numbers mean what they say", "statement": "For every chain of integer weights, the numbers behind the Raftery-Lewis table are what the method defines: the transition counts count every pair (or triple) of consecutive binary indicators exactly once, with totals equal to the number of pairs (triples); the two goodness-of-fit statistics are non-negative and vanish exactly when the counts factorise; every parameter passes the Markov test at both ends at some thinning between the largest weight and the one reported; the independence thinning is the least, from the Markov thinning on, at which the hardest parameter passes as independent; the burn-in is the largest over parameters of the number of steps after which a two-state chain with the counted transition rates has forgotten its start to the given accuracy. The loops end for every chain.", "quantifier": "all chains, all parameters, all limits and confidence settings, all thinning factors", "why_tests_cant": "Needs the statistics of a fitted Markov chain at all numbers of steps and the termination of two data-dependent loops.", "anchors": ["python/getdist/mcsamples.py: MCSamples.getConvergeTests (RafteryLewis)"]}
{"id": "C136", "title": "Raftery-Lewis numbers exist for good chains", "statement": "Raftery-Lewis gives finite thinning and burn-in for a chain of independent samples and for a rapidly mixing chain; the burn-in does not depend on rounding of the weights.", "quantifier": "all chains", "why_tests_cant": "Quantifies over chains; the failing ones are exactly those which mix best.", "anchors": ["python/getdist/mcsamples.py: MCSamples.getConvergeTests (RafteryLewis)"]}
{"id": "C137", "title": "Correlation lengths of several chains follow their definition", "statement": "For any number of usable chains, the correlation length of a parameter in the convergence report is the value at distance zero plus twice the sum of the mean correlations of the chains, up to the first distance at which they have fallen to a twentieth; for one chain it is the same as getCorrelationLength; it does not depend on the order of the chains nor on the unit or origin of the parameter, is proportional to the weights, and for rows of weight one its value at distance zero is the part of the variance that lies within the chains. The line printed is consistent: length times effective number is the total weight.", "quantifier": "all lists of chains of any lengths and weights", "why_tests_cant": "Equalities over all chains and weights.", "anchors": ["python/getdist/mcsamples.py: MCSamples.getConvergeTests (CorrLengths)"]}
{"id": "C138", "title": "The effective number of samples shows failure to converge", "statement": "The effective number of samples reported for several chains is at most about the number of rows if the chains disagree, and the report is made for chains that do not move.", "quantifier": "all lists of chains", "why_tests_cant": "Needs chains which no test data contain.", "anchors": ["python/getdist/mcsamples.py: MCSamples.getConvergeTests (CorrLengths)"]}
{"id": "C139", "title": "The variance of the chain means is reported consistently", "statement": "For all chains with positive weights: the number reported for a parameter is the standard deviation of the chain means over the root of the mean variance within chains; it is zero exactly if all chains have the same mean; not-a-number exactly if the parameter is constant in each chain; the two variances add up to that of all samples; and for chains of the same total weight its square is never above the Gelman-Rubin R-1 reported.", "quantifier": "all lists of chains, all numbers of parameters", "why_tests_cant": "Relates two reports over all chains, with eigenvalues.", "anchors": ["python/getdist/mcsamples.py: MCSamples.getConvergeTests (MeanVar, GelmanRubin)"]}
{"id": "C140", "title": "Correlations at given distances", "statement": "The table of correlations as a function of step distance has at each distance the mean over all chains of the mean product of differences from the chain mean in units of the variance; all chains contribute to every entry shown; the distance between steps is a whole number of at least five unless set by hand.", "quantifier": "all lists of thinned chains, all numbers of steps, all distances", "why_tests_cant": "A loop over chains which shrinks its own range.", "anchors": ["python/getdist/mcsamples.py: MCSamples.getConvergeTests (CorrSteps)"]}
{"id": "C141", "title": "Correlations are shown up to the number of steps asked for", "statement": "If every chain has after thinning at least twice as many rows as the number of steps asked for, all of them are shown.", "quantifier": "all lists of chains", "why_tests_cant": "The failing cases need the size of the thinned chains near the distance.", "anchors": ["python/getdist/mcsamples.py: MCSamples.getConvergeTests (CorrSteps)"]}
{"id": "C142", "title": "Principal components mean what the report says", "statement": "For all samples with non-negative weights: the matrix printed holds the correlations of the (mapped) parameters, each between -1 and 1; the eigenvalues are printed in increasing order, are not negative and add up to the number of parameters; without conditional parameters components have mean zero, those of different eigenvalues are uncorrelated, and the error printed is the root of the eigenvalue times the length of the vector; the formula printed for a component, evaluated on a sample, is the number whose mean and error are printed; the normalisation parameter has exponent one in every component; with conditional parameters the matrix is that of the least variance left when they are known; each parameter is used with its own letter of the map if all exist.", "quantifier": "all samples, weights, maps, numbers of parameters and conditional parameters", "why_tests_cant": "Identities of linear algebra for all data and for every eigenvalue routine.", "anchors": ["python/getdist/mcsamples.py: MCSamples.PCA"]}
{"id": "C143", "title": "Principal components: missing parameters, default map, conditional errors, equal eigenvalues", "statement": "A missing parameter does not change how the others are mapped and a missing normalisation parameter is reported; by default the logarithm is used exactly for parameters that do not reach or cross zero; with conditional parameters the error printed belongs to the eigenvalue; different components are always uncorrelated; the number of parameters can be set on the command line.", "quantifier": "all samples and parameter lists", "why_tests_cant": "The failing inputs are combinations of settings no test uses.", "anchors": ["python/getdist/mcsamples.py: MCSamples.PCA", "python/getdist/command_line.py: PCA settings"]}
{"id": "C144", "title": "The command line analyses the chains given, with the settings given", "statement": "A chain root alone is analysed with default settings and no plots; a settings file alone with its own root; both together give that root with those settings; a root with or without .txt is the same; a root with wildcards gives one analysis for each parameter names file found, of the root in front of the ending; without arguments or with a missing settings file nothing is analysed; the root on the command line wins over that of the file.", "quantifier": "all arguments, all file systems", "why_tests_cant": "The recursion over found files and the handling of endings are for all names.", "anchors": ["python/getdist/command_line.py: getdist_script"]}
{"id": "C145", "title": "The command line does the right thing with unusual roots", "statement": "A root that does not end in .ini is a chain root; a root may be given without settings file; with wildcards plots have the same default as without; chains of Cobaya are found with wildcards; the script ends.", "quantifier": "all arguments, all file systems", "why_tests_cant": "The failing names are in no test.", "anchors": ["python/getdist/command_line.py: getdist_script"]}
{"id": "C146", "title": "Settings select the parameters they name", "statement": "A list of words selects exactly the parameters matched by a pattern or named, word by word, in the order of the words and inside a pattern in the order of the parameters; blank means all; a plot of a given dimension is made exactly if that many are selected; the pairs plotted in two dimensions are those asked for and no other, none twice, one parameter against each of the others, or each two; the script written says exactly these names.", "quantifier": "all parameter lists, all settings; for pairs given one by one: names in which the join with two underscores can be undone", "why_tests_cant": "Exactness of selection over all names and patterns.", "anchors": ["python/getdist/command_line.py: getdist_script (filterParList)", "python/getdist/mcsamples.py: _writeScriptPlots1D, _writeScriptPlots2D"]}
{"id": "C147", "title": "Settings for plots: nothing twice, nothing else, nothing lost", "statement": "No parameter is listed twice; a missing name is reported; custom pairs are plotted in the order given, also if a parameter is given by another name it has, and no pair that was not given; the script is python for all names.", "quantifier": "all parameter lists, all settings", "why_tests_cant": "The failing inputs are unusual names.", "anchors": ["python/getdist/command_line.py: getdist_script (filterParList)", "python/getdist/mcsamples.py: _writeScriptPlots2D"]}
{"id": "C148", "title": "Parameters and limits are read from Cobaya's information", "statement": "A parameter is sampled exactly if it has a prior; derived exactly if it is marked so or computed from others without being marked as not derived; a number is a fixed parameter. The list of names is the sampled parameters and then the derived ones, each in the order of the file, followed by what Cobaya adds (prior and likelihoods), with labels, and after post-processing it is the list without the removed and with the added ones, fields of the addition winning. Limits are those of the prior: pair, minimum and maximum, or the whole interval of the distribution, infinite ones being no limit; a fixed parameter has both limits equal to its value; derived ones their own minimum and maximum. Names are listed once unless a parameter is of both kinds.", "quantifier": "all information dictionaries", "why_tests_cant": "For all dictionaries, names, distributions and post-processing steps.", "anchors": ["python/getdist/cobaya_interface.py: is_sampled_param, is_derived_param, get_info_params, get_range", "python/getdist/paramnames.py: loadFromFile (yaml)", "python/getdist/parampriors.py: loadFromFile (yaml)"]}
{"id": "C149", "title": "All information Cobaya writes can be read, and reading does not change it", "statement": "Reading the range of a parameter twice gives the same range; standard distributions, parameters that are not saved, parameters given by a text are read; a fixed parameter can be changed in post-processing; one parameter to remove may be given as a text; no parameter is listed twice; files of every sampler of Cobaya can be loaded.", "quantifier": "all information dictionaries", "why_tests_cant": "The failing dictionaries are in no test.", "anchors": ["python/getdist/cobaya_interface.py: get_range, get_info_params, get_sampler_type"]}
{"id": "C150", "title": "Burn-in and sampler of new samples follow the arguments", "statement": "The number of rows to ignore is that of the argument, else of the settings, else of the settings file, else zero; with a properties file its value wins and burn_removed means that nothing is removed; a sampler given as argument is used whatever the files say and must be one of three; nested samples with a non-zero argument are refused; the parameter file is .updated.yaml if it exists, else __full.yaml, without prefix for a directory.", "quantifier": "all arguments and files", "why_tests_cant": "Precedence over all combinations of sources.", "anchors": ["python/getdist/mcsamples.py: MCSamples.__init__, setSampler", "python/getdist/cobaya_interface.py: get_sampler_type, get_burn_removed, cobaya_params_file"]}
{"id": "C151", "title": "Burn-in is never removed from samples that have none", "statement": "Chains from which Cobaya has removed burn-in keep all rows, as do nested samples and samples given as arrays without any setting.", "quantifier": "all arguments and files", "why_tests_cant": "The loss of rows is silent.", "anchors": ["python/getdist/mcsamples.py: MCSamples.__init__", "python/getdist/cobaya_interface.py: get_burn_removed"]}
{"id": "C152", "title": "Gaussian mixtures are the distributions they say", "statement": "For all means, positive definite covariances and weights with a positive sum: weights are scaled to one; the density is a density, given by the same numbers for one point, for rows of points and for two parameters; its integral is one; the density of one parameter is the integral over all others; the mixture of some parameters has the density with the others integrated out, with their names and limits, and is refused if others have limits; the total mean is the mean; fixing parameters of a single normal distribution gives the density for known parameters, and of several components each one is right by itself; an inverse covariance, standard deviations with a correlation, and one-dimensional mixtures mean what they say.", "quantifier": "all dimensions, numbers of components, means, positive definite covariances, weights, choices of parameters", "why_tests_cant": "Integrals over all of space for all covariances.", "anchors": ["python/getdist/gaussian_mixtures.py: MixtureND, Mixture2D, GaussianND, Mixture1D, make_2D_Cov"]}
{"id": "C153", "title": "Gaussian mixtures: ranges and random samples", "statement": "The range of a parameter has the limits given and otherwise holds every component to the number of standard deviations asked for; random samples are as many as asked for, each drawn from a component and inside all limits; the loop ends if every round gives a sample inside; arguments win over stored limits; the density of one parameter is given on its range.", "quantifier": "all mixtures, limits and sequences of random numbers", "why_tests_cant": "For every sequence of random numbers.", "anchors": ["python/getdist/gaussian_mixtures.py: autoRanges, sim, density1D, Mixture2D._updateLimits"]}
{"id": "C154", "title": "Gaussian mixtures: total covariance, known parameters of several components, limits", "statement": "The total covariance is the covariance of the mixture; fixing parameters of a mixture of several components gives the density for known parameters; the lower limit is the lower limit; the density of one parameter can be had when limits of others are to be disregarded.", "quantifier": "all mixtures", "why_tests_cant": "No test looks at these numbers.", "anchors": ["python/getdist/gaussian_mixtures.py: MixtureND.__init__, conditionalMixture, getLower, density1D"]}
{"id": "C155", "title": "Axis ticks fit and the search for them ends", "statement": "For every axis, font size, rotation and formatter: the search for ticks ends; ticks are evenly spaced and increasing, not more than asked for (two are always allowed), one of the allowed steps apart, which are at least eleven tenths of a label; ticks of a step are all points of its lattice within the range up to a rounding error; if labels may not overlap the ends, two or more ticks are on the axis; the labels have room between each other and at the ends, unless even the last resort does not fit.", "quantifier": "all ranges, step groups, numbers of bins, label lengths as functions of the ticks", "why_tests_cant": "Depends on all ranges and label lengths together; loops without bound.", "anchors": ["python/getdist/matplotlib_ext.py: BoundedMaxNLocator, _le, _ge, _closeto, _staircase"]}
{"id": "C156", "title": "Axis ticks: within bounds, round numbers, last resort", "statement": "Ticks are always within the axis; ticks are moved only to reach a round number; ticks with a zero are preferred; labels that do not fit are not shown.", "quantifier": "all axes", "why_tests_cant": "Seen only for particular ranges.", "anchors": ["python/getdist/matplotlib_ext.py: BoundedMaxNLocator.tick_values, _spaced_ticks"]}
{"id": "C157", "title": "The supernova likelihood integrates over unknown magnitudes", "statement": "For all supernovae, distances, parameters and positive definite covariances: the likelihood is minus the logarithm of the integral of the Gaussian over the unknown magnitude, or over both magnitudes when supernovae are split in two groups, and the assertion before the logarithm holds; it does not depend on the estimate of the magnitude subtracted first, nor on the scale of distances (Hubble constant); the covariance is that of the corrected magnitudes when correlations are symmetric, its quadratic form always, and it is positive definite if all variances are positive; the inverse is exact for parameters not close to the last ones, otherwise it is the inverse for close parameters; marginalisation over both parameters is the sum over all grid points within a circle; data files with one header give all columns and covariance files the matrix.", "quantifier": "all numbers of supernovae, data, matrices, sequences of calls", "why_tests_cant": "Integrals over unbounded parameters, all sequences of calls.", "anchors": ["python/planck/SN.py: SN_likelihood"]}
{"id": "C158", "title": "The supernova likelihood: blank lines, comments, cached inverse, marginalisation without precomputed matrices", "statement": "Blank lines and comments in the data do not matter; the name of the data set is kept; the inverse depends on the parameters only; a call that fails fails again; matrices need not be computed in advance for marginalisation; correlations need not be symmetric.", "quantifier": "all files and sequences of calls", "why_tests_cant": "Each needs a particular file or sequence of calls.", "anchors": ["python/planck/SN.py: SN_likelihood.__init__, inverse_covariance_matrix, alpha_beta_like"]}
{"id": "C159", "title": "The DES likelihood compares each measurement used with its own theory", "statement": "For all data files and selections: the entries used are those of the types used whose angle is strictly between the limits of their pair of bins, in file order, with their positions in the covariance; the data vector holds their values; with data types in the order of the theory every entry is compared with its own correlation; chi squared is the quadratic form of the inverse of the selected covariance, zero for the data, positive otherwise, and does not grow when data are left out; error bars are roots of the diagonal; the sum over multipoles has every multipole from two to the last once and is exact for spectra constant on groups; lensing efficiencies are not negative and decrease with distance.", "quantifier": "all files, selections, covariances, spectra", "why_tests_cant": "All selections and positive definite matrices; sums of any length.", "anchors": ["python/planck/DES.py: load_dataset, get_theory, make_vector, chi_squared, _initialize"]}
{"id": "C160", "title": "The DES likelihood: order and choice of data types, repeated measurements, steps in distance", "statement": "Data types can be given in any order and any of them left out; a measurement given twice keeps both values; steps in distance add up to the largest distance.", "quantifier": "all settings and files", "why_tests_cant": "Only the one standard data set is ever used.", "anchors": ["python/planck/DES.py: load_dataset, get_theory, make_vector"]}
{"id": "C161", "title": "The Planck likelihood in python: names, bins and spectra", "statement": "For all data: each parameter of the library gets the value of the parameter at the same place in the file of names; the spectra in the data are passed in order, divided by their prefactor, and come back at their own places; every pair of channels has the binned spectrum of its two kinds, symmetrically; components for fewer channels do not touch the others; a binned quantity lies between its extremes in the bin.", "quantifier": "all numbers of channels, bins, spectra, names", "why_tests_cant": "All layouts of channels; index arithmetic across nested loops.", "anchors": ["python/planck/CMB_plik.py: _translate_parname, get_nuisance_vector, get_cl_clik_ordering, get_cmb_rq, get_nuisance_rq"]}
{"id": "C162", "title": "Coadded Planck spectra are the best fit", "statement": "For all selection matrices, calibrations, foregrounds, data and positive definite inverse covariances: the loops over entries that are not zero are matrix products; the coadded spectrum has smaller chi squared than every other spectrum, so no theory fits better; chi squared of any spectrum is the least value plus the quadratic form of the returned matrix, whose inverse is the covariance of the coadded spectrum; data that are a spectrum give it back; values go to the rows they belong to; the covariance is scaled like the spectrum.", "quantifier": "all matrices and data", "why_tests_cant": "Optimality over all spectra.", "anchors": ["python/planck/CMB_plik.py: coadd_spectra, coadded_TT, chi_squared"]}
{"id": "C163", "title": "The Planck likelihood in python: python 3, wide bins, unused bins, file of names", "statement": "The likelihood and the coadded temperature work under python 3 and for bins of any width; the covariance returned is that of the temperature bins; only the letter of the version is dropped from the name; missing names are noticed.", "quantifier": "all data and names", "why_tests_cant": "Each needs a particular data file.", "anchors": ["python/planck/CMB_plik.py: __init__, coadded_TT"]}
{"id": "C164", "title": "The CamSpec likelihood compares each spectrum and multipole used with its own theory", "statement": "For all data files and selections of spectra and multipoles: the data used are those of the spectra used at the multipoles used, in file order, each with its position in the covariance; ranges of multipoles are read as written; the differences are value less theory entry by entry; calibrations of cross spectra are the geometric mean; normalised templates are one at the pivot; positions and covariances of differences of spectra are those of the linear combinations.", "quantifier": "all files, selections, ranges and templates", "why_tests_cant": "All layouts of spectra and index arithmetic of slices.", "anchors": ["python/planck/CMB_CamSpec.py: range_to_ells, read_normalized, __init__, chi_squared, diff, get_foregrounds"]}
{"id": "C165", "title": "The coadded CamSpec temperature is the best fit", "statement": "For all numbers of spectra, ranges of consecutive multipoles that cover the result, calibrations and positive definite inverse covariances: the nested loops compute the design matrix products; the coadded temperature has smaller chi squared than any other; data that are one spectrum give it back; the matrix returned is the covariance of the result; weights of spectra with calibration one add up to one.", "quantifier": "all spectra, ranges, calibrations, matrices", "why_tests_cant": "Optimality over all spectra, loops of any length.", "anchors": ["python/planck/CMB_CamSpec.py: coadded_TT, get_weights"]}
{"id": "C166", "title": "The CamSpec likelihood: single multipoles, gaps, spectra left out, foreground tilt, stored inverse; smoothing of short data", "statement": "Single multipoles and gaps can be given; some of the temperature spectra can be left out; the object can be set up; the logarithm for the tilt of the foreground is stored; spectra are compared by name; setting up twice gives the same inverse; the covariance returned takes polarisation into account; smoothing keeps the number of samples.", "quantifier": "all settings", "why_tests_cant": "Each needs particular settings.", "anchors": ["python/planck/CMB_CamSpec.py: range_to_ells, __init__, coadded_TT, get_weights", "python/planck/smoothing.py: gaussian_smooth_1d"]}
{"id": "C167", "title": "Smoothing covariances keeps constants, bounds and positivity", "statement": "For all windows and data at least as long as the window: a constant is unchanged up to the ends, smoothed values lie between the smallest and the largest value, and the smoothed covariance of a positive semidefinite covariance is symmetric and positive semidefinite.", "quantifier": "all data, windows, matrices", "why_tests_cant": "Universally quantified over matrices.", "anchors": ["python/planck/smoothing.py: gaussian_smooth_1d, smoothed_cov"]}
{"id": "C168", "title": "Foreground parameters are added to chains, names and best fits in the same place", "statement": "For all chains, names and best-fit files: the entries of a best-fit file are read by name whatever blanks and labels they have; three parameters are put before the first chi squared; every old parameter has its old value under the new names, and weight and likelihood are unchanged; parameters of the components come from the column of their name, else have their fixed value; the foreground of a row is the sum of the components; entries of the new best-fit file are numbered one after the other and read back to the same values; new files have a common root; foreground files hold each spectrum under its label; complete runs can be repeated without effect.", "quantifier": "all files, names, components", "why_tests_cant": "All texts of files; alignment of columns and names for any number of parameters.", "anchors": ["python/planck/plik_postprocess.py: parse_minimumfile, main_fgfile, main_fg2000", "python/planck/plikParams.py"]}
{"id": "C169", "title": "Foreground parameters: no chi squared, blank lines, short chains, interruption, tags", "statement": "Names without chi squared or with blank lines, chains of one row, parameters without limits, components in any order, any tags, and runs after an interruption are treated like the others.", "quantifier": "all files and runs", "why_tests_cant": "Each needs a particular file or an interruption.", "anchors": ["python/planck/plik_postprocess.py: main_fgfile, main_fg2000", "python/planck/plikParams.py"]}
{"id": "C170", "title": "The plotter loads the samples of a name once, from the first location that has them", "statement": "For all sequences of calls: once samples of a name are loaded, every later request for the name gives the same object until it is removed, reset or explicitly reloaded; a removed name is loaded again; requests never change the samples of other names; the chain file is that of the first location that has the name, and a name that no location has is an error.", "quantifier": "all sequences of calls, locations, names", "why_tests_cant": "A statement on all sequences of calls.", "anchors": ["python/getdist/plots.py: MCSampleAnalysis.samples_for_root, add_root, remove_root"]}
{"id": "C171", "title": "Curves and contours drawn belong to the samples in use", "statement": "After any calls, densities, grids, single samples and curves are those of the samples that answer for the root now, with the normalisation and the settings asked for in this call.", "quantifier": "all sequences of calls", "why_tests_cant": "Needs particular sequences of calls.", "anchors": ["python/getdist/plots.py: MCSampleAnalysis, add_1d, plot_1d"]}
{"id": "C172", "title": "Settings and labels of the plotter: own location, reset, labels", "statement": "The settings used for a chain are the analysis settings, those of its own location and those of the call; reset starts from the defaults; the caller's settings are not changed; labels of a call are not kept for later calls.", "quantifier": "all locations, settings, calls", "why_tests_cant": "Needs several locations or calls.", "anchors": ["python/getdist/plots.py: MCSampleAnalysis.reset, samples_for_root, params_for_root"]}
{"id": "C173", "title": "Subplots have their own places and are found by their parameters", "statement": "For all numbers of plots and all lists of distinct parameters: the default grid is large enough without an empty row, its number of columns is the rounded square root; each plot of an array, a triangle (with its upper half) or a rectangle has its own place, the triangle has exactly the pairs on and below the diagonal, and asking for the axes of the parameters of a subplot gives that subplot.", "quantifier": "all numbers of plots, parameter lists", "why_tests_cant": "Any number of parameters.", "anchors": ["python/getdist/plots.py: default_col_row, _subplot, _subplot_number, get_axes_for_params, triangle_plot, rectangle_plot"]}
{"id": "C174", "title": "Axes of several chains show the smallest range that holds all of them", "statement": "For all chains: the common prior bounds allow exactly the values that all priors allow; the range of a one-dimensional plot is the smallest that holds the ranges of all curves, cut to the prior of the first; the axis of a parameter in a rectangle plot shows the smallest range that holds those of all its subplots; a legend entry is that of its own chain; short argument lists are extended by their last element, markers are taken by name or position.", "quantifier": "all ranges, chains, subplots", "why_tests_cant": "Any number of chains and subplots.", "anchors": ["python/getdist/plots.py: _check_param_ranges, _get_param_bounds, _update_limit, _update_limits, plot_1d, rectangle_plot, add_2d_contours, extend_list_zip"]}
{"id": "C175", "title": "Layout: no plots, single plots, different priors, chains missing from subplots, roots per subplot", "statement": "Figures are made for any number of plots; axes of a single plot are found by its parameters; no curve is cut where its own prior allows values; every chain drawn has its legend entry; rectangle plots with roots given per subplot need no labels.", "quantifier": "all figures", "why_tests_cant": "Each needs particular chains or arguments.", "anchors": ["python/getdist/plots.py: default_col_row, get_axes, plot_1d, add_2d_contours, rectangle_plot"]}
{"id": "C176", "title": "Arguments of lines, contours and legends", "statement": "The style of a line is what the call asks for, else the plot arguments in the settings for that line, else the default style of the line, with the dashes of its style; every root gets the arguments given for it with the lists of colours, styles and widths laid over; with one value for all, contours are filled unless they have their own; in a legend a label stays with its line whatever the order; a legend placed outside hangs on the side it is placed.", "quantifier": "all settings, arguments, numbers of lines and roots, orders of labels", "why_tests_cant": "Sources of arguments are many and depend on each other; tests compare no pictures.", "anchors": ["python/getdist/plots.py: _get_line_styles, _get_default_ls, _make_line_args, _make_contour_args, add_legend, finish_plot"]}
{"id": "C177", "title": "Arguments and sizes: no memory of earlier calls, all kinds of lists, offsets, small sizes", "statement": "Styles of lines do not depend on lines drawn before; arguments of the caller are not changed; tuples are as good as lists; a contour is filled only when asked for; reversed legends show the same entries; a line offset shifts the lines of the labels; fonts grow with the axes and are only scaled down; lines have the width set at the reference size.", "quantifier": "all settings and calls", "why_tests_cant": "Each needs two calls or an unusual argument.", "anchors": ["python/getdist/plots.py: _get_plot_args, _make_line_args, _make_contour_args, add_legend, scaled_fontsize, scaled_linewidth"]}
{"id": "C178", "title": "Old names of settings and plot styles", "statement": "Old names in camel case are found under the new names with underscores; what is set under a name, old or new, is read back under both and no other setting changes; unknown settings are refused, removed ones ignored; the matplotlib parameters are always those of the start with the active style's own laid over, and the default style restores them; unknown styles are refused.", "quantifier": "all names of words with at least two letters, all objects, all sequences of style changes", "why_tests_cant": "Names and sequences of style changes are unbounded.", "anchors": ["python/getdist/_base.py: _convert_camel, _map_name, __getattribute__, __setattr__", "python/getdist/plots.py: StyleManager"]}
{"id": "C179", "title": "Old names and styles: complete tables, subclasses, redefined and temporary styles", "statement": "All old names of settings are known, also in subclasses; the settings that plots read exist; defining a style and activating it makes it active; a plotter in another style does not change later ones; matplotlib parameters set by the user are kept.", "quantifier": "all settings, styles and sequences of calls", "why_tests_cant": "Each needs a rare option or two styles.", "anchors": ["python/getdist/_base.py: _map_name", "python/getdist/plots.py: GetDistPlotSettings, add_1d, StyleManager"]}
{"id": "C180", "title": "Renaming parameters of a grid of chains", "statement": "The map of new names is read from the file of pairs or the arguments; in .paramnames files exactly the names in the map change, with the labels of the label file, and nothing else; renaming to fresh names and back gives the file back; in best fit files only the lines of renamed parameters change and keep their numbers; without --confirm no file changes; with it only .paramnames and best fit files of the chosen chains do.", "quantifier": "all maps, names, files and grids", "why_tests_cant": "Maps, names and files are unbounded.", "anchors": ["python/renameParam.py"]}
{"id": "C181", "title": "Renaming: complete pairs, different names, readable best fit files, finished grids", "statement": "Every name given is used; names stay different; renamed lines of best fit files still have name and label apart; a label is added where there was none; both kinds of files get the same label; with --confirm all files of the grid are renamed.", "quantifier": "all maps, names, files and grids", "why_tests_cant": "Each needs an unusual name, or the files left by an interrupted run.", "anchors": ["python/renameParam.py"]}
{"id": "C182", "title": "Samples as objects and dictionaries, joined samples, properties of saved samples", "statement": "Every parameter is an attribute with its name, nested at the dots, or `value` there if there are parameters below it; the dictionary of a sample has weight, likelihood and all parameters, without the derived ones if not wanted and with the fixed ones if wanted; the best sample is one of smallest minus log likelihood; the best fit is that of the file for what was maximised; joined samples have the masses asked for, so that means are averaged with these weights; saved properties are those given, else the label, else those of the samples, else the old ones; the root of the chains in a directory is found.", "quantifier": "all lists of names, samples, weights, properties", "why_tests_cant": "Nesting of names, precedence of dictionaries and the mass of weights concern all sizes.", "anchors": ["python/getdist/chains.py: setParams, getParams, getParamSampleDict", "python/getdist/mcsamples.py: getBestFit, getParamBestFitDict, getParamSampleDict, getCombinedSamplesWithSamples, saveTextMetadata, getRootFileName", "python/getdist/types.py: getParamDict"]}
{"id": "C183", "title": "Samples as objects and dictionaries: clashing names, samples without likelihoods or files, dotted names, old properties", "statement": "All parameters are found, also one called value; derived and fixed parameters are left out of the best sample if not wanted; samples without likelihoods have dictionaries; a missing best fit is reported as such; samples with any names can be joined, with the columns of both under each common name; saved properties describe these samples; chains are found among other text files.", "quantifier": "all names, samples and files", "why_tests_cant": "Each needs an unusual name, missing information or earlier files.", "anchors": ["python/getdist/chains.py: setParams, getParamSampleDict", "python/getdist/mcsamples.py: getBestFit, getParamBestFitDict, getCombinedSamplesWithSamples, saveTextMetadata, getRootFileName"]}
{"id": "C184", "title": "LaTeX of limits and tables", "statement": "The kind of a limit is seen from its text, inline snippets have an equals sign exactly for limits that are not one sided, parameters that are not there are refused or left empty; a printed one sided limit with its power of ten is within half a percent; a table has a column for the name and for each value; all rows come in order, each followed by the line for its position, at the ends of blocks the one for blocks; a document has the table between its begin and end, and all packages.", "quantifier": "all limits, formatters, tables, titles", "why_tests_cant": "Texts of numbers and sizes of tables are unbounded.", "anchors": ["python/getdist/types.py: MargeStats.texValues, TableFormatter, OpenTableFormatter, NoLineTableFormatter, ResultTable", "python/getdist/mcsamples.py: getLatex, getInlineLatex"]}
{"id": "C185", "title": "LaTeX of limits and tables: shifts, titles, rules, labels", "statement": "Texts stay in their cells; shifts start with their number; labels of columns tell the limit; a result and its mirror image have the same error printed; titles cover all columns; header and rows have as many cells as the table has columns; the rule below the titles spans them; one result object is as good as a list.", "quantifier": "all limits, formatters, tables, titles", "why_tests_cant": "Each needs a rare option or unusual values, and a look at the LaTeX.", "anchors": ["python/getdist/types.py: MargeStats.texValues, limitText, namesigFigs, texEscapeText, ResultTable, NoLineTableFormatter.belowTitleLine"]}
{"id": "C186", "title": "Files of CMB likelihoods", "statement": "A table of spectra with one row for each multipole from the first to the last is stored with each value at its multipole and zero below, under the pair of fields its column names, whatever their order; adding a file keeps what is there; the theory of the likelihood is what the table has; tables with gaps are refused; columns are found by their names in the last comment line; a factor multiplies all spectra of the four standard fields; windows of bin b come from file use_min + b, weights at their multipoles, and a warning comes just when weights are lost; the calibration parameter and its prior; diagonal errors.", "quantifier": "all tables, headers, fields, windows, settings", "why_tests_cant": "Numbers of rows, columns, fields and bins are unbounded, and a shift by one still gives plausible curves.", "anchors": ["python/CMBlikes.py: readTextCommentColumns, readWithHeader, ClsArray, readBinWindows, readIni, get_full_bandpower_column, diag_sigma"]}
{"id": "C187", "title": "Files of CMB likelihoods: order, ranges, writing, plots", "statement": "Rows are stored by their multipoles in any order; adding to an empty array stores the file; all spectra end at the same multipole; short theory is refused; a factor works for any fields; a warning names the file read; windows have one weight for each spectrum and one row for each multipole; windows and foregrounds can be written; leaving out the calibration means calibration one; plots draw the theory and the column asked for, for any number of spectra.", "quantifier": "all tables, fields, windows, settings", "why_tests_cant": "The code accepts these inputs silently or has methods that are never called by tests.", "anchors": ["python/CMBlikes.py: ClsArray, readBinWindows, BinWindows.write, write_likelihood_data, chi_squared, plot, plotAndChisq"]}
{"id": "C188", "title": "Automatic bandwidths minimise the expected error of the density", "statement": "The solution of the fixed point equation is positive and the width of least mean integrated square error for the roughness estimated with it; the equation can be evaluated at all widths for data that is not flat, and is an error for flat data. Bandwidths do not depend on the normalisation of the bins, and follow shifts and changes of unit of the parameter. A failed or too small width is replaced by the rule of thumb, and the width used is always positive. In two dimensions all moments have the sign of their order so that no root of a negative number is taken; the two widths without correlation are the best pair; exchanging the axes exchanges the widths; and whatever the minimiser returns, the kernel returned is not worse than any kernel without correlation.", "quantifier": "all sets of samples and bins, numbers of samples, ranges, results of the root finders and minimisers", "why_tests_cant": "Tests compare a few densities; optimality is a statement about all other widths, and the signs hold by an argument over a recursion.", "anchors": ["python/getdist/kde_bandwidth.py: _bandwidth_fixed_point, bin_samples, bandwidth_binned, bandwidth, KernelOptimizer2D", "python/getdist/mcsamples.py: getAutoBandwidth1D, getAutoBandwidth2D"]}
{"id": "C189", "title": "Automatic bandwidths: convergence, units of the fallback, settings", "statement": "A bandwidth from the root finder is a root; the fallback width in units of the parameter is the rule of thumb; the setting for the effective number of samples in two dimensions is used.", "quantifier": "all root finders, parameters and settings", "why_tests_cant": "The convergence flag, the border of the range and the default of an argument are never looked at by tests.", "anchors": ["python/getdist/kde_bandwidth.py: bandwidth_binned", "python/getdist/mcsamples.py: getAutoBandwidth1D, getAutoBandwidth2D"]}
{"id": "C190", "title": "Samples handed over by Cobaya are those of its collections", "statement": "When MCSamplesFromCobaya accepts, the collections have the same columns and their parameters are exactly the sampled and derived ones of the information; no collections, other columns and other parameters are refused. The parameters of the result are those of the columns in their order with the label, derived flag and other names of the information; every value, weight and likelihood is that of its column, for every row of every chain; every parameter of the information, fixed ones included, has the limits of its range; names and limits agree with those read from the files of the same run; burn-in is the argument, and sampler and label are those of the information.", "quantifier": "all collections, infos, priors, settings", "why_tests_cant": "Tests have one collection; the agreement of the two ways to load the same run is a statement about all infos.", "anchors": ["python/getdist/cobaya_interface.py: MCSamplesFromCobaya, get_range, get_info_params", "python/getdist/mcsamples.py: MCSamples.__init__, setRanges", "python/getdist/chains.py: Chains.__init__"]}
{"id": "C191", "title": "Samples handed over by Cobaya: accepted infos, settings, aliases", "statement": "Information that can be read from files is accepted with collections of its parameters; ignore_rows in the settings is used when the argument is left out; a parameter gets only its own aliases.", "quantifier": "all infos, settings and aliases", "why_tests_cant": "Parameters without information, functions that are not saved and common aliases are not in the tests.", "anchors": ["python/getdist/cobaya_interface.py: MCSamplesFromCobaya", "python/getdist/mcsamples.py: MCSamples.__init__", "python/getdist/paramnames.py: updateRenames"]}
{"id": "C192", "title": "Running getdist over a grid, copying results, settings from best fits", "statement": "The settings file of an item takes each setting from the item, else the command line, else the options of the grid, else its own paths, and getdist reading the file sees these whatever included plots and defaults say; the extra plots and defaults are the first that exist; getdist is started exactly for wanted items with chains, in order, each once, never with more than the allowed number of processes, and all get started when processes end. Files copied from results are those of the items with the extensions. The settings for CAMB stand for the best fit (amplitude, neutrinos, consistency relation of tensors, units), and the printed parameters are those of the first block of the file.", "quantifier": "all grids, items, options, file systems, durations of processes, best fits", "why_tests_cant": "Tests do not run the scripts; precedence, the bound on processes and the meaning of settings are for all inputs.", "anchors": ["python/runGridGetdist.py", "python/extractDistFiles.py", "python/extractBestFitCAMB.py", "python/extractBestFitParams.py"]}
{"id": "C193", "title": "Running getdist over a grid and copying results: plot data, no processes, relative defaults, normalized names, missing parameters", "statement": "The scripts work for every choice of arguments: a default directory for plot data, every number of processes, files of defaults that exist, copies under normalized names keep all files, and best fits without neutrinos or tensors give settings for CAMB.", "quantifier": "all arguments", "why_tests_cant": "Each failure needs an argument that no example uses.", "anchors": ["python/runGridGetdist.py", "python/extractDistFiles.py", "python/extractBestFitCAMB.py"]}
{"id": "C194", "title": "Typed settings and the settings of samples", "statement": "Text of integers, floats, truth values, lists and arrays is read as what it stands for, absent and empty settings give the default or an error, numbered settings are separate, and attributes saved with getAttr and read with setAttr are the same. After initParameters or updateSettings each attribute of samples is its setting read with its own type, or as before; types never change; later settings count before earlier ones and these before the file; burn-in is a fraction below one and a number of lines from one on; contours are those written or numbered, each with its threshold.", "quantifier": "all settings, files, texts, attributes, sequences of updates", "why_tests_cant": "Tests set a few values; round trips and precedence are for all settings.", "anchors": ["python/getdist/inifile.py: asType, setAttr, getAttr, bool, list, float, int, split, ndarray, array_*", "python/getdist/mcsamples.py: _setBurnOptions, initParameters, updateSettings"]}
{"id": "C195", "title": "Typed settings: truth values in lists, saved lists, arrays, unused settings, the dictionary of the caller", "statement": "Lists of truth values are read as written, lists saved are read back, settings can be arrays, each documented setting has an effect, given settings are not changed and count before those of the file.", "quantifier": "all settings", "why_tests_cant": "Nobody tests what is not read; the failing calls raise no error or need arrays.", "anchors": ["python/getdist/inifile.py: bool_list, getAttr, isSet, split", "python/getdist/mcsamples.py: MCSamples.__init__, initParameters"]}
{"id": "C196", "title": "Data sets for forecasts", "statement": "Given noise, a beam, a largest multipole and for lensing its noise up to there, make_forecast_cmb_dataset makes a data set whose settings, read again, are those meant. The likelihood reading it uses the fields, has for each multipole the noise l(l+1)/2\u03c0 N exp(l(l+1)\u03c3\u00b2) of each field with no correlations (variance from \u03bcK arcmin or given, polarisation by its factor, lensing as given) and band powers that are the input with the noise. \u03c3 is that of a beam falling to one half at half the width. The exact likelihood of a theory is never negative and zero if and only if its spectra are the input's.", "quantifier": "all noise levels, beams, limits, fields, input tables, theories with positive definite matrices", "why_tests_cant": "One test value is checked by the script; that the data set is exact for all settings, and that only the input has likelihood zero, is about all of them.", "anchors": ["python/makePerfectForecastDataset.py: make_forecast_cmb_dataset", "python/CMBlikes.py: readIni, readCl, bandpower_matrix, exact_chi_sq, chi_squared", "python/getdist/inifile.py: saveFile"]}
{"id": "C197", "title": "Data sets for forecasts: fields in the file, lensing alone, arrays, defaults, messages", "statement": "Fields left to the program are those in the file; data sets for lensing alone and with arrays of lensing noise can be made; beam and largest multipole can be left out; missing noise is reported as such; noise of zero is noise; each field used has noise.", "quantifier": "all arguments", "why_tests_cant": "The script is run with one set of arguments, which avoids all of these.", "anchors": ["python/makePerfectForecastDataset.py: make_forecast_cmb_dataset"]}
{"id": "C198", "title": "Tables of grids: references, captions, headings and files", "statement": "The reference of an item is the last item of the base model with the same data as a set (without ignored data); with changes from added or replaced data it is the last item whose data are these without the added data, or with the old data in place of the new. The table has the columns asked for, the \u03c7\u00b2 of the best fit, the mean \u03c7\u00b2 and their differences from the reference exactly when both are known, and below it for each kind of likelihood in order its value with the difference from the same likelihood of the reference. Each item shown has one heading, in the order of the grid. Files are named after the limit.", "quantifier": "all grids with names of data without underscores, all results, all arguments that do not conflict", "why_tests_cant": "Finding references depends on all items of the grid; tests do not run the script.", "anchors": ["python/makeTables.py: dataIndex, baseJobItems, paramResultTable, main loop", "python/paramgrid/batchjob.py: normed_data, normalizeDataTag"]}
{"id": "C199", "title": "Tables of grids: columns, all limits, separate files, averages, ignored data, best fits left out", "statement": "The options work together: a number of columns, all limits in a directory or in separate files or with a name with extension, leaving out best fits, ignored data that the base model has too, averages, added with replaced data, names of data with underscores; each heading has a table.", "quantifier": "all arguments and grids", "why_tests_cant": "Each failure needs a combination of options; errors are caught and printed, so that the script succeeds.", "anchors": ["python/makeTables.py"]}
{"id": "C200", "title": "Small scripts: looking at chains, scaling covariances, LaTeX of limits, comparison of models, running jobs, adding grids, reading spectra", "statement": "chainPeek prints the values of the parameter in the first chain. covscale writes each covariance matrix with every entry times the factors of its two parameters. makeLatex finds all parameters asked for, with label and limit, prints them as rows and writes one snippet for each. makeParamCompare has one line for each parameter and set of models having it, with the last values found for each set of data in the order asked for. runningJobs shows the jobs that run or minimize an item of the grid, with their convergence. Adding grids keeps all items and removes exactly the importance runs whose name without _post is that of an item, with the runs made from these. Spectra read are the first ones with the root, over the square of the calibration.", "quantifier": "all chains, matrices, factors, results, grids, queues, directories", "why_tests_cant": "The scripts have no tests, and what they print depends on all items and files.", "anchors": ["python/chainPeek.py", "python/getdist/covscale.py", "python/makeLatex.py", "python/makeParamCompare.py", "python/runningJobs.py", "python/addGridBatch.py", "python/chainDumpPlot.py: loadFiles"]}
{"id": "C201", "title": "Small scripts: number of the chain, unknown parameters, missing factors, files in the current directory, several parameters, no grid", "statement": "The scripts do what their arguments say: the number of a chain, parameters that are not there, factors for all parameters, single parameters, names with dots, output to the current or a new directory, values of each parameter in its line, jobs without a grid, data in another order, directories that are no grids, roots without directory.", "quantifier": "all arguments", "why_tests_cant": "Each failure needs an argument that no example uses.", "anchors": ["python/chainPeek.py", "python/getdist/covscale.py", "python/makeLatex.py", "python/makeParamCompare.py", "python/runningJobs.py", "python/addGridBatch.py", "python/chainDumpPlot.py: loadFiles"]}
{"id": "C202", "title": "Triangle plots: linked axes", "statement": "When triangle_plot is done, in each column and row the axis of a parameter has the range chosen by its 1D plot, with and without upper_roots. Without upper_roots this stays so for any later changes: whatever range of whatever subplot the user (or the zoom of a window) sets, all axes of that parameter and no other follow, and the exchange of callbacks stops.", "quantifier": "all numbers of parameters, all ranges, all sequences of changes on any subplots", "why_tests_cant": "The callbacks call each other through shared axes; a test of one zoom does not show that every sequence ends with all axes in agreement.", "anchors": ["python/getdist/plots.py: triangle_plot, _make_sub_plots callbacks"]}
{"id": "C203", "title": "Triangle plots: linked axes with upper_roots", "statement": "With upper_roots too, a range set on any subplot is passed to all axes of that parameter.", "quantifier": "all numbers of parameters, all subplots and ranges", "why_tests_cant": "Only some of the subplots pass their range on, and which ones depends on the options.", "anchors": ["python/getdist/plots.py: triangle_plot"]}
{"id": "C204", "title": "Grids of plots: parameters, legends, places, sizes and colours", "statement": "A list of parameter names and objects gives for each the first parameter known under one of its names, or the object; unknown names are errors; one pattern gives all its matches. The legend has one label for each root: its label, name or number. plots_1d shows each parameter once, each in its own place; plots_2d pairs the x parameter with all others. The columns fill the figure and subplots have the shape asked for. Contour colours are one for each level, the colour itself innermost and each step outwards mixed with white; the 1D line of a root has the colour of its innermost contour. The 1D plots have the roots of the lower triangle, then each shown upper root once with its own line arguments.", "quantifier": "all lists of parameters, renames, roots, settings, colours, numbers of levels", "why_tests_cant": "Tests look at a few figures and only check that they are made; the rules are about all lists and settings.", "anchors": ["python/getdist/plots.py: get_param_array, _check_param, _root_display_name, default_legend_labels, plots_1d, plots_2d, make_figure, _get_paler_colors, _setup_filled, triangle_plot"]}
{"id": "C205", "title": "Grids of plots: patterns in lists, objects and renames, labels, options", "statement": "Patterns in a list give all their matches; an object that is not found stays; renames find objects as they find names and may be lists; chains of the same name in different directories have different labels, also with LaTeX; labels are texts with roots_per_param; share_y=False is the default layout; max_z is the number of plots; axes of plot_3d are labelled by their parameters; a pale factor of zero is used.", "quantifier": "all arguments", "why_tests_cant": "Each failure needs arguments that no test uses.", "anchors": ["python/getdist/plots.py: get_param_array, _check_param, _root_display_name, plots_1d, plots_2d, plots_3d_z, plot_3d, _get_paler_colors"]}
{"id": "C206", "title": "Stored statistics describe the samples held at the moment", "statement": "After any sequence of changes (filtering, re-weighting, new ranges, new derived parameters, new settings) and queries, means, covariance, correlations and densities are those of the present samples, ranges and settings, so they do not depend on the history; limits, likelihood statistics and the covariance matrix are so after updateBaseStatistics or after asking for any density, and limits whenever they are asked for the first time. Limits in the settings replace ranges that were set. The covariance matrix is labelled by the sampled parameters when derived ones come last. A refused addDerived without a range changes nothing.", "quantifier": "all sequences of operations, data, ranges, settings, names", "why_tests_cant": "Stored results can be stale only after particular sequences of calls; there are unboundedly many sequences.", "anchors": ["python/getdist/chains.py: _weightsChanged, getCov, getCorrelationMatrix, getMeans, updateBaseStatistics, addDerived", "python/getdist/mcsamples.py: updateBaseStatistics, get1DDensity, get1DDensityGridData, _setDensitiesandMarge1D, getMargeStats, getLikeStats, getCovMat, setRanges, addDerived"]}
{"id": "C207", "title": "Limits, likelihood statistics and covariance matrices after a change of the samples", "statement": "getMargeStats, getLikeStats and getCovMat always describe the samples held at the moment, cover all parameters and never fail; a refused addDerived changes nothing; an object returned earlier keeps its values; getCovMat covers the sampled parameters wherever they are listed.", "quantifier": "all sequences of operations", "why_tests_cant": "Each failure needs a query, a change and the query again, which no test does.", "anchors": ["python/getdist/mcsamples.py: _setDensitiesandMarge1D, getMargeStats, getLikeStats, getCovMat, addDerived"]}
{"id": "C208", "title": "The proposal matrix of each job of a grid", "statement": "makeGrid sets as propose_matrix the first existing file of: the name of the job, its ordered name with the name mappings, its mapped name, the matrix of the data set, the matrix of the settings (each next to the code and then in the directory of matrices), then the names to try (covRenamer, covrenames with the first occurrence replaced, covWithoutNameOrder: the job without each name in the list and without that name and all before it). A matrix that is set exists; nothing is set if there is none; MPI_Max_R_ProposeUpdate is set if the settings say so or none of the first group exists.", "quantifier": "all jobs, settings, file systems", "why_tests_cant": "The search depends on which of many files exist and on the settings; tests use no matrices.", "anchors": ["python/paramgrid/gridconfig.py: makeGrid", "python/paramgrid/batchjob.py: makeNormedName", "python/planck/settings_planck_2015.py: covRenamer"]}
{"id": "C209", "title": "Names under which a proposal matrix is looked for", "statement": "Names to try are looked for in the directory of matrices however the code was started; data mapped to nothing disappear from the mapped name; covRenamer does not depend on upper or lower case as its flag says.", "quantifier": "all settings, names, directories", "why_tests_cant": "Each failure shows only as a worse starting matrix.", "anchors": ["python/paramgrid/gridconfig.py: makeGrid", "python/planck/settings_planck_2015.py: covRenamer"]}
{"id": "C210", "title": "Opening a grid", "statement": "After makeGrid with settings every script sees all jobs in order; a directory with neither stored grid nor settings is no grid and nothing is written; if the stored object is missing, unreadable or refers to code that has moved, the grid is the jobs of the stored settings that have chains, and it is stored; reading twice gives the same. Scripts with a directory argument get that grid or an error and have all options that the selection of jobs uses.", "quantifier": "all directories, settings, stored objects, sets of chains, options", "why_tests_cant": "Depends on the history of a directory and on which chains exist.", "anchors": ["python/paramgrid/batchjob.py: readobject, resetGrid, saveobject", "python/paramgrid/gridconfig.py: makeGrid, pathIsGrid", "python/paramgrid/batchjob_args.py: parseForBatch, filteredBatchItems"]}
{"id": "C211", "title": "A grid shows the jobs of its settings whatever happened to the stored object", "statement": "A grid that is read has all jobs of its settings that have chains; removing the stored object loses nothing; an error is reported again at the next attempt; plotting scripts, scripts without a directory and scripts without importance options can be used.", "quantifier": "all directories, histories, options", "why_tests_cant": "Each failure needs a particular history of the directory, or a script that no test starts.", "anchors": ["python/paramgrid/batchjob.py: readobject, resetGrid", "python/paramgrid/gridconfig.py: makeGrid", "python/paramgrid/batchjob_args.py: parseForBatch"]}
{"id": "C212", "title": "A job script runs each of its runs once and is known to the index", "statement": "submitJob writes a script with one command for each parameter file, in order, made from the values of the job and that file only, in the background unless the runs are sequential; with several runs their list is written too. A dry run does nothing, --no_sub only writes, otherwise exactly the written script is given to the queue once. If the resources cannot be shared out nothing is written. After Grid Engine's answer the index of the batch directory holds the job under its id, every run is found under its name, entries of other runs and other directories are unchanged. Slots asked for are runs times chains times threads.", "quantifier": "all job settings, templates, file lists, answers of the queue, contents of the disk and the index", "why_tests_cant": "Tests have no queue; the effects depend on the options, the number of runs and the answer.", "anchors": ["python/paramgrid/jobqueue.py: submitJob, addJobIndex, replacePlaceholders, checkArguments"]}
{"id": "C213", "title": "Submitted jobs are recorded under the id printed by the queue, with a log for each run", "statement": "Runs of one job have different log files; no answer of the queue leaves the index as it is; the id recorded is the printed one; after an error nothing has been submitted.", "quantifier": "all file lists, answers, indexes", "why_tests_cant": "Each failure needs a queue, which tests do not have.", "anchors": ["python/paramgrid/jobqueue.py: submitJob"]}
{"id": "C214", "title": "Signal to noise combinations", "statement": "getSignalToNoise(C, noise) returns combinations of the parameters that have unit noise, are uncorrelated in noise and in signal, with ascending signal variances w (C u = w N u); the signal variance of any combination in units of its noise lies between the smallest and the largest w; the w depend on the noise matrix only, not on the rotation used, and eigs_only returns the same; without noise and rotation, or with a noise matrix that is not positive, there is an error.", "quantifier": "all covariance and noise matrices of any size, all rotations", "why_tests_cant": "A statement about all matrices and all vectors; tests do not call the function.", "anchors": ["python/getdist/chains.py: getSignalToNoise, WeightedSamples.getSignalToNoise"]}
{"id": "C215", "title": "Scatter plots, bands and covariance contours show what they say", "statement": "With alpha_samples each sample with more than 1/400 of the largest weight is drawn as one to four copies whose opacities add up to alpha times its relative weight; points drawn are samples and lie inside the returned bounds, which extend a twentieth of the range beyond them; extra_thin=k draws points 0, k, 2k...; the points of plot_4d are exactly those strictly inside all limits, also for parameters not plotted and in whatever order they are given; each root has its colour; bands are centred and nested, the widest drawn first; the contours of add_2d_covariance enclose 68 and 95 percent of the Gaussian with that covariance; export of a plain name goes to directory/name_tag.extension.", "quantifier": "all samples, weights, limits, roots, covariances, names", "why_tests_cant": "A statement about all weights and all covariances (an integral over the plane); tests only look whether a figure can be made.", "anchors": ["python/getdist/plots.py: add_3d_scatter, plot_2d_scatter, add_4d_scatter, plot_4d, add_x_bands, add_y_bands, add_bands, add_2d_covariance, export"]}
{"id": "C216", "title": "Arguments of scatter plots, bands and export are used as documented", "statement": "alpha_samples works with two parameters; colours that are too few are extended as alphas and markers are; any number of bands can be drawn; the extension of the name given to export decides the type of the file, a name without one gets the default one, the file is saved below the directory given, and without a name it is called after the script.", "quantifier": "all arguments", "why_tests_cant": "The failures need particular combinations of arguments.", "anchors": ["python/getdist/plots.py: add_3d_scatter, plot_2d_scatter, plot_4d, add_bands, export"]}
{"id": "C217", "title": "Numbers survive being written as tick labels and read from YAML files", "statement": "The label of a tick denotes the value rounded to eleven digits, so that two values have the same label only if they agree to that precision. In the files of Cobaya, decimal numbers with a point and whole numbers with an exponent (with either letter, with or without sign) are read as floats with their value; whole numbers without are not; the restriction to certain first characters loses nothing; a number written with '%e' is read back; and the conversion of a text that passes for a float fails exactly for a point followed by underscores alone.", "quantifier": "all values, all texts", "why_tests_cant": "The label drops zeros, points, signs and a significand of one in many combinations; the expression has six alternatives over unbounded texts.", "anchors": ["python/getdist/matplotlib_ext.py: SciFuncFormatter, _format_sci_notation", "python/getdist/yaml_tools.py: yaml_load"]}
{"id": "C218", "title": "Every decimal number of a YAML file is read as a number", "statement": "Decimal numbers that begin with the point are floats, with or without sign, with any exponent, as other decimal numbers are; whatever is taken for a float has a value.", "quantifier": "all texts", "why_tests_cant": "The alternative for these numbers differs from the others in two places.", "anchors": ["python/getdist/yaml_tools.py: yaml_load"]}
{"id": "C219", "title": "The Planck plot style gives nested bands, known sizes and tables whose rows fit", "statement": "Bands drawn by plotBands are centred on the means, each inside the next, the widest first; for scalar means they are as if the mean were repeated; files are exported below the directory asked for; every plotter of subplots adds two points to the axis sizes and colour bar of the process while a single plotter sets them; the width of a plotter is the one asked for; a likelihood file below the directory of data sets is looked up there with its foreground binning; in a Planck table with one column of parameters the preamble, the titles, the rules, the header and all rows of parameters cover the same number of columns.", "quantifier": "all means, errors, sequences of plotters, numbers of results and columns, labels", "why_tests_cant": "A statement about all tables and all sequences of calls; tests never use the module.", "anchors": ["python/planckStyle.py: plotBands, getSubplotPlotter, getSinglePlotter, getPlotterWidth, getLikelihood, planckStyleTableFormatter", "python/getdist/types.py: ResultTable"]}
{"id": "C220", "title": "The Planck plot style uses its arguments and labels as given", "statement": "All data labels are well-formed TeX; a plot_data directory is used whether or not the grid has one; plotters of the same size get the same fonts; a subplot size that is given is used; tables of several columns of parameters have a preamble of that many columns; a likelihood can be given by name; as many bands are drawn as are asked for.", "quantifier": "all arguments", "why_tests_cant": "The failures need particular combinations of arguments or a second plotter.", "anchors": ["python/planckStyle.py: datalabel, getSubplotPlotter, getPlotterWidth, plotBands, getLikelihood, startTable"]}
{"id": "C221", "title": "Lists of parameters have the names, kinds, labels and columns asked for", "statement": "Every parameter of a list is either derived or running and is in exactly one of the two lists of names; default names are different and count from one; a list made from names has them in order, derived where starred, labelled by name; parameters come from the file if there is one, else from the names, else are default ones, and labels given by position beat those given by name, changing nothing else; a parameter that is added comes last, is derived unless stated otherwise and is found there if its name is new; names that cannot be written are refused; names are written in columns of one width.", "quantifier": "all lists of parameters, all combinations of arguments of the constructor", "why_tests_cant": "A statement about all combinations of sources of names and labels; tests make lists from one source.", "anchors": ["python/getdist/paramnames.py: ParamInfo, ParamList.__init__, setDefault, setWithNames, setLabels, setLabelsFromParamNames, addDerived, parFormat, getDerivedNames, getRunningNames"]}
{"id": "C222", "title": "Parameters are compared by name, labelled by default and tested for convergence wherever they stand", "statement": "nameEquals is true exactly for the name of the parameter; names with spaces are refused in lists too; parameters made from names have them as labels; a parameter that was added can be found; the convergence test covers the parameters that are not derived.", "quantifier": "all lists of parameters", "why_tests_cant": "The failures need unusual names or orders, and one function is never called.", "anchors": ["python/getdist/paramnames.py: nameEquals, setWithNames, addDerived", "python/getdist/chains.py: getGelmanRubinEigenvalues"]}
{"id": "C223", "title": "A DES data file and the text data set made from it give the same likelihood data", "statement": "If the angles are the same in all tables, converting the original file to text and reading that selects the same measurements in the same order as reading the file itself, with the same data vector; the angles reported for the data are those of their rows and all lie within the cuts; the default cuts cover exactly the pairs of bins that are measured, do not depend on the order of shear bins, and use smaller angles for higher bins.", "quantifier": "all files of measurements, all cuts", "why_tests_cant": "A statement about all data files and both readers; the data are not part of the repository.", "anchors": ["python/planck/DES.py: get_def_cuts, load_fits_data, load_dataset, convert_txt, make_thetas"]}
{"id": "C224", "title": "DES data can be converted and read in either form", "statement": "Any file that can be read can be converted; both forms select the same data when the angles agree as far as is asserted; the ending of the name decides which reader is used; the alignment model can be read afterwards.", "quantifier": "all files, all cuts, all names", "why_tests_cant": "Failures need Python 3, an angle next to a cut, a particular directory name, or the reader that the tests do not use.", "anchors": ["python/planck/DES.py: DES_like.__init__, load_dataset, load_fits_data, convert_txt"]}
{"id": "C225", "title": "Mean likelihoods shown with densities are normalised means of the likelihoods", "statement": "In each bin the likelihoods of its samples are averaged with their weights; without correction of bias the smoothed value in two dimensions lies between the smallest and the largest likelihood wherever the density exceeds 1e-4 of its maximum, and is zero elsewhere; in one dimension the same holds relative to a constant likelihood; the values shown lie between zero and one and reach one; they do not depend on the likelihood to which the others are compared; with mean logarithms, if no bin is empty, ratios of likelihoods are shown.", "quantifier": "all samples, weights, windows and grids", "why_tests_cant": "A statement about all samples and smoothing windows; tests do not compute mean likelihoods.", "anchors": ["python/getdist/mcsamples.py: get1DDensityGridData, get2DDensityGridData"]}
{"id": "C226", "title": "A constant likelihood is shown as constant, and mean logarithms can always be shown", "statement": "Samples of equal likelihood have equal mean likelihood wherever it is shown, with any settings; mean logarithms can be shown whenever there are samples, and adding a constant to all logarithms adds it to their mean.", "quantifier": "all samples and settings", "why_tests_cant": "The failures show only as wrong shades in plots.", "anchors": ["python/getdist/mcsamples.py: get1DDensityGridData, get2DDensityGridData"]}
{"id": "C227", "title": "Densities interpolate their present values", "statement": "After any history of making densities, setting their values and normalising copies of them, in whatever way arrays are shared, a call interpolates the values that the density has then, and likewise if what is done in place is done to arrays of which no other density has made a spline; normalising a copy changes no other density and no array; arrays of the right dimension are accepted exactly if they have the sizes of the axes; bounds are in the order x, y, z; in two dimensions rows of the array belong to values of y; in one the density vanishes outside the grid.", "quantifier": "all histories of calls, all arrays", "why_tests_cant": "A statement about all histories with shared arrays; tests use one density at a time.", "anchors": ["python/getdist/densities.py: GridDensity, Density1D, Density2D, DensityND"]}
{"id": "C228", "title": "Densities can be shared, checked and evaluated in every way offered", "statement": "A call gives the present values also after another density on the same array was normalised in place; arrays of the wrong dimension are refused; Prob returns the density in two dimensions; unknown parameters give no density whether or not it is to be normalised.", "quantifier": "all densities", "why_tests_cant": "The failures need shared arrays, wrong arguments or functions that are not called in tests.", "anchors": ["python/getdist/densities.py: normalize, setP, Prob", "python/getdist/mcsamples.py: get2DDensity"]}
{"id": "C229", "title": "Two-dimensional plots show what is asked for", "statement": "Without given limits the axes of plot_2d show exactly the part of the hull of all densities that lies in the hard priors of the first root, and the hull is returned; given limits are used; without any density nothing changes. set_axes sets labels on the axes for which they are asked and hides numbers only if asked and never next to a label. Filled contours have one band for each level, in order, the last reaching above the maximum. Levels that are given come before those of the density, and those before the settings. Shades go from clear and white to their colours without steps back, at increasing levels from 0 to 1. Numbers on y axes are scientific exactly if all are small or some are large. Names and bounds are those of the samples until something changes after new_plot.", "quantifier": "all roots, bounds, priors, labels, levels, shades and histories", "why_tests_cant": "Drawings are hardly tested; ranges need hulls over any number of roots.", "anchors": ["python/getdist/plots.py: plot_2d, set_axes, add_2d_contours, add_2d_shading, _set_axis_formatter, param_names_for_root"]}
{"id": "C230", "title": "Two-dimensional plots follow their arguments and settings in every case", "statement": "lims=None is the same as no limits; every density is shown where its own priors allow; numbers are hidden if that is asked for; contours can be drawn with any valid settings and in the number set; every density can be shaded; labels are the present ones.", "quantifier": "all arguments and settings", "why_tests_cant": "Each failure needs a special argument, setting or order of calls.", "anchors": ["python/getdist/plots.py: plot_2d, set_axes, add_2d_contours, add_2d_shading, param_names_for_root"]}
{"id": "C231", "title": "A plot in the graphical interface has what is selected", "statement": "There is a plot exactly for selections as described; it has all selected roots, every selected x (and y, unless it is a triangle) and nothing else; the analysis settings written to the script are those that differ from the defaults; samples are analysed with the settings of the window after each update or opened directory; texts without quotes or backslashes are read from the script as they are; each directory is named once.", "quantifier": "all selections, settings and sequences of actions", "why_tests_cant": "The number of selections and histories of settings is unbounded, and scripts are only run by hand.", "anchors": ["python/getdist/gui/mainwindow.py: plotData, changed_settings, settingsChanged, resetAnalysisSettings, getPlotter", "python/getdist/plots.py: MCSampleAnalysis"]}
{"id": "C232", "title": "Plots in the graphical interface and their scripts agree in every case", "statement": "The script makes the call that is on the screen with the settings of the window: legends of many roots, colours, styles, new settings, settings set back to defaults or reset, settings of chains, and texts with backslashes or quotes are the same on the screen and in the script, and a setting that is changed is used.", "quantifier": "all selections, settings and sequences of actions", "why_tests_cant": "Each failure needs a special selection, setting or order of actions.", "anchors": ["python/getdist/gui/mainwindow.py: plotData, changed_settings, settingsChanged, resetAnalysisSettings, getPlotter"]}
{"id": "C233", "title": "Changes of settings in the interface change just the settings of an open script", "statement": "For a script as the interface writes it: a change of analysis settings replaces the old assignment or puts it before the plotter, gives the plotter the argument and keeps all other lines; the last change counts; a change of plot settings gives each changed setting its new value, removes those set back, keeps the others and all other lines, after the plotter is made; entries that are neither empty nor the default are the changed ones.", "quantifier": "all scripts, settings and entries", "why_tests_cant": "Scripts are edited by users; their number and form is unbounded.", "anchors": ["python/getdist/gui/mainwindow.py: settingsChanged, plotSettingsChanged, plotData2"]}
{"id": "C234", "title": "Changes of settings work in every open script", "statement": "All plotters get the analysis settings, also with an ini file; lines that are not settings are kept; settings can hold any text; a changed plot setting counts wherever the plotter is made and however often it was set, and is set before plots; one bad entry does not undo others; only exports are left out when a script is run.", "quantifier": "all scripts, settings and entries", "why_tests_cant": "Each failure needs a special script or entry.", "anchors": ["python/getdist/gui/mainwindow.py: settingsChanged, plotSettingsChanged, plotData2"]}
{"id": "C235", "title": "Lists of roots, parameters and directories in the interface hold what was added and selected", "statement": "Adding a root that loads checks it once and keeps the others; removing removes just the selected one; texts in the parameter lists are distinct and stand for the parameters in order; when roots change those parameters are selected that the new list knows under a name of a selected one; tables have the parameters under the names of their root, or an error; directories are saved with the current one first, none twice, at most ten.", "quantifier": "all lists of roots, parameters, renames and directories", "why_tests_cant": "Selections and renames combine without bound and are only seen on the screen.", "anchors": ["python/getdist/gui/mainwindow.py: newRootItem, removeRoot, _updateParameters, _updateListParametersSelection, getXParams, showParamTable, saveDirectories"]}
{"id": "C236", "title": "Selections in the interface are kept and used in every case", "statement": "An update that changes no parameters keeps the selections of all lists and boxes; a root is read from the directory that is open; a PCA is of the selected parameters whatever the root calls them; the buttons of the table dialog work.", "quantifier": "all lists of roots, parameters and renames", "why_tests_cant": "Each failure needs renames, equal names of roots, or a click nobody tested.", "anchors": ["python/getdist/gui/mainwindow.py: _updateComboBoxParam, _updateParameters, newRootItem, showPCA, DialogParamTables"]}
{"id": "C237", "title": "Chains saved as text are read back as they were", "statement": "After saveChainsAsText chain k is in the file with number k+1, one line for each sample with weight, likelihood (zero if there are none) and parameters as printed, and every other file is as before. Read back from a directory without other chains of this root, marked burn_removed, the same chains are found, up to their order, complete. The zre importance filter saves exactly the samples of each chain from the limit on. Saving what was read changes nothing further.", "quantifier": "all chains, roots, directories, listings and limits", "why_tests_cant": "Directories and chains are unbounded, and the order of a listing is arbitrary.", "anchors": ["python/getdist/mcsamples.py: saveChainsAsText, readChains", "python/getdist/chains.py: saveAsText, chainFiles, loadChains", "python/planck/settings_planck_2018.py: zre_importance"]}
{"id": "C238", "title": "All samples can be saved as text and read back in every directory", "statement": "Chains saved over older ones replace them; chain numbers are kept; samples without likelihoods, samples made from one array, samples filtered so that a chain is empty, and samples of weight zero are saved and read back.", "quantifier": "all samples and directories", "why_tests_cant": "Each failure needs special samples or files that are already there.", "anchors": ["python/getdist/mcsamples.py: saveChainsAsText", "python/getdist/chains.py: saveAsText, chainFiles, getSeparateChains"]}
{"id": "C239", "title": "CamSpec foregrounds are possible spectra in proportion to their amplitudes", "statement": "Foregrounds are computed exactly when all parameters but acib143 are given. With amplitudes that are not negative every spectrum is a number; all amplitudes times c give all spectra times c; the 143, 217 and 143x217 spectra can be those of maps (every combination of maps has a power that is not negative) if dust and the correlation of gas and infrared background are; at the pivot the power is the sum of the amplitudes in the bands; dust and point sources add their template and l(l+1); spectra at 100 and 217 GHz depend on their own parameters only; without acib143 the background at 143 is 0.094 of that at 217.", "quantifier": "all templates, parameters and multipoles", "why_tests_cant": "Parameters and templates are real numbers; positivity of a quadratic form for all combinations cannot be sampled.", "anchors": ["python/planck/CMB_CamSpec.py: get_foregrounds"]}
{"id": "C240", "title": "CamSpec foregrounds follow every parameter given", "statement": "The infrared background is a power law in the multipole with index ncib; a value given for acib143 is used; foregrounds are numbers for all amplitudes.", "quantifier": "all parameters and multipoles", "why_tests_cant": "The index does nothing only in a range of multipoles, and fits still run.", "anchors": ["python/planck/CMB_CamSpec.py: get_foregrounds, __init__"]}
{"id": "C241", "title": "DES theory: each parameter acts on its own bins, in the way of its meaning", "statement": "Parameters with number b are used for bin b. Shear correlations are in proportion to the calibrations of both bins and quadratic in the alignment amplitude; galaxy correlations are in proportion to the bias of both bins; each correlation depends only on the parameters of its own bins; correlations of shear and of galaxies are symmetric in the bins; spectra from power that is not negative are possible spectra; with the Weyl potential of general relativity lensing is the same as from matter.", "quantifier": "all cosmologies, distributions, parameters, bins and angles", "why_tests_cant": "Theory is a function of real parameters and of arbitrary power spectra.", "anchors": ["python/planck/DES.py: get_theory_for_params, get_theory, get_wq, get_qgal"]}
{"id": "C242", "title": "DES theory can be had for the data used and parameters they need", "statement": "Theory for shear data needs the parameters of shear only, any number of bins can be used, and the Weyl potential can be used with all data.", "quantifier": "all data and parameters", "why_tests_cant": "Each failure needs data or parameters other than those of the first release.", "anchors": ["python/planck/DES.py: get_theory_for_params, get_theory"]}
{"id": "C243", "title": "Density plots of spectra count each sample in its bin and colour by parameters of samples", "statement": "For spectra that are not negative every value has a bin; counts are the numbers of samples whose value lies in each bin, with the sums of their parameters; wherever there is density, and below and above it, the value of the colour lies between the least and the largest parameter; opacity is between zero and one and one somewhere.", "quantifier": "all samples, parameters, windows and numbers of bins", "why_tests_cant": "Samples and bins are unbounded; the mean of smoothed counts must stay within limits for all of them.", "anchors": ["python/chainDumpPlot.py: CLdensity, rainbowDensityPlot"]}
{"id": "C244", "title": "Density plots of spectra work for all spectra", "statement": "Spectra of either sign can be plotted, with any supported Python, and each visible place has a colour of its samples.", "quantifier": "all samples", "why_tests_cant": "Cross spectra go below zero, the plots of the paper do not.", "anchors": ["python/chainDumpPlot.py: CLdensity"]}
{"id": "C245", "title": "Points of chains become the CAMB cosmology of the same parameters", "statement": "A point is converted exactly if its model is known and the six basic parameters are given; each parameter becomes the argument of its meaning, or that of the standard model if not given, and the amplitude is 10^9 A_s; parameters with other names have no effect.", "quantifier": "all points", "why_tests_cant": "Points have arbitrary parameters.", "anchors": ["python/cosmomc_to_camb.py: get_camb_params"]}
{"id": "C246", "title": "Points that CAMB cannot represent are refused", "statement": "Every parameter of the model that is not passed on is refused, and points of sampled parameters can be converted.", "quantifier": "all points", "why_tests_cant": "Only models with tensors or annihilation would show it.", "anchors": ["python/cosmomc_to_camb.py: get_camb_params"]}
{"id": "C247", "title": "Sizes of a new plotter", "statement": "A plotter made without settings has settings of its own. A single plot has the width and the ratio of height to width asked for; subplots have the size asked for or share the total width; fonts come from rcParams exactly when asked for; sizes given by name are multiples of the size of the font.", "quantifier": "all sizes, widths, ratios, numbers of subplots, contents of rcParams, sequences of plotters", "why_tests_cant": "Tests compare no figure sizes and use one setting.", "anchors": ["python/getdist/plots.py: GetDistPlotSettings._numerical_fontsize, rc_sizes, set_with_subplot_size, GetDistPlotter.get_single_plotter, get_subplot_plotter", "python/getdist/styles/planck.py"]}
{"id": "C248", "title": "Settings given by the caller are used as they are", "statement": "Settings given to a new plotter keep their sizes, plotters do not change each other, and rc_sizes=True uses the sizes of rcParams.", "quantifier": "all settings", "why_tests_cant": "It takes settings with other sizes than the defaults, or two plotters.", "anchors": ["python/getdist/plots.py: GetDistPlotter.get_single_plotter, get_subplot_plotter"]}
{"id": "C249", "title": "Text, markers, transparency and the legend of a finished plot", "statement": "Arguments of the call win over settings; the side of text follows its place; there is a legend exactly when there are labels and they are wanted; later filled contours are transparent.", "quantifier": "all arguments and settings", "why_tests_cant": "Drawing is not compared in tests.", "anchors": ["python/getdist/plots.py: add_text, add_text_left, add_x_marker, add_y_marker, _get_alpha_2d, finish_plot, add_colorbar_label"]}
{"id": "C250", "title": "Labels of colour bars and of contours in 3D plots", "statement": "The rotation given is used, offset texts do not shrink when tick labels grow, and contours in 3D plots are labelled as in 2D plots.", "quantifier": "all rotations, sizes, lists of roots", "why_tests_cant": "Only plots that are looked at would show it.", "anchors": ["python/getdist/plots.py: add_colorbar_label, _set_axis_properties, plots_3d"]}
{"id": "C251", "title": "Filters of importance runs in the supplied grids", "statement": "Lensing, supernova, reionization and distance data are added exactly to the runs they are meant for; every importance run comes from a run of its group that wanted it; in the grid of 2018 none adds distances to models with curvature, and lensing only to runs with a Planck likelihood.", "quantifier": "all directories, skipped runs, runs of a grid", "why_tests_cant": "Filters are written once and run on hundreds of combinations of models and data.", "anchors": ["python/planck/settings_planck_2018.py", "python/planck/settings_planck_2015.py", "python/planck/settings_planck_nominal.py", "python/paramgrid/batchjob.py: makeItems"]}
{"id": "C252", "title": "No two runs of a supplied grid write to the same chains", "statement": "In the grids of 2013, 2015 and 2018 the roots of chains of all runs are different.", "quantifier": "all directories and skipped runs", "why_tests_cant": "Grids have hundreds of runs that no test makes.", "anchors": ["python/planck/settings_planck_2018.py", "python/planck/settings_planck_2015.py", "python/planck/settings_planck_nominal.py"]}
{"id": "C253", "title": "Files of all runs of the supplied grids can be made", "statement": "Every varied parameter has a range, all data are files or options, and the options that go with a parameter are those of the file of each run that varies it.", "quantifier": "all runs of all supplied grids, all common directories and covariance options", "why_tests_cant": "Later parameters may replace options of earlier ones.", "anchors": ["python/planck/settings_planck_2018.py", "python/paramgrid/gridconfig.py: makeGrid"]}
{"id": "C254", "title": "Settings of the supplied grids mean what they are meant to", "statement": "Options of a parameter do not depend on the order of parameters; lensing data only go to Planck runs; marginalised lensing data get no correction; runs are found by the tag of their data.", "quantifier": "all runs of the supplied grids", "why_tests_cant": "It takes the particular runs.", "anchors": ["python/planck/settings_planck_2018.py", "python/planck/settings_planck_2015.py", "python/paramgrid/gridconfig.py"]}
{"id": "C255", "title": "Results of a run are those of its files", "statement": "Loading the results of a run gives the best fit, limits, likelihood statistics and convergence of its files, whatever was loaded before; it succeeds exactly if the files that are needed can be read; a minimization has converged exactly if its best fit can be read and is not marked as failed; convergence that is held was in the file at some time since the last loading.", "quantifier": "all contents of files, options, histories of loading and asking", "why_tests_cant": "It depends on files of other programs and on the order of calls.", "anchors": ["python/paramgrid/batchjob.py: chainMinimumExists, chainBestfit, chainMinimumConverged, R, hasConvergeBetterThan, loadJobItemResults", "python/getdist/types.py: addBestFit"]}
{"id": "C256", "title": "Missing or damaged files of a run cost only what was in them", "statement": "Results that are there are loaded also if others are not; nothing of an earlier state is left; the convergence asked for is that of the file now; a damaged best fit counts as a failed minimization.", "quantifier": "all contents of files", "why_tests_cant": "Tests have complete files.", "anchors": ["python/paramgrid/batchjob.py: chainMinimumConverged, R, loadJobItemResults"]}
{"id": "C257", "title": "Tables of numbers are read completely", "statement": "Reading the text file of a chain gives exactly the numbers of its rows: lines that are skipped count all lines, comments and blank lines have no effect; for complete rows of at least two columns weights, likelihoods and parameters are those of the file, whether or not pandas is installed.", "quantifier": "all texts, numbers of skipped lines and rows", "why_tests_cant": "Tests use one of the libraries and a few files.", "anchors": ["python/getdist/chains.py: loadNumpyTxt, WeightedSamples.__init__, setColData"]}
{"id": "C258", "title": "Reading a chain does not depend on the library that is installed", "statement": "A table is read in the same way with and without pandas; incomplete rows are refused; an empty chain is reported as empty.", "quantifier": "all texts", "why_tests_cant": "Tests run with one of the libraries.", "anchors": ["python/getdist/chains.py: loadNumpyTxt, WeightedSamples.__init__"]}
{"id": "C259", "title": "Configuration, cache and cached grids are found where they are meant to be", "statement": "The configuration is that of the file named by the environment or else of the package; the cache is below the directory of caches of the platform; a cache directory that is given back exists; a stored grid is found again until it is reset or its directory is gone; a new parameter file is the template with the defaults in it; the clean-up lists all matching files and removes them exactly if this is confirmed.", "quantifier": "all environments, platforms, states of the file system, hashes and templates", "why_tests_cant": "It depends on the environment and the file system.", "anchors": ["python/getdist/__init__.py: get_config, _get_cache_dir, make_cache_dir", "python/getdist/command_line.py: make_param_file", "python/paramgrid/batchjob.py: grid_cache_file, resetGrid, readobject, saveobject", "python/cleanup.py: fsizestr"]}
{"id": "C260", "title": "Wrong configuration is reported and grids are not mixed up", "statement": "A configuration file that is named but missing is reported; the cache is a directory, and not in the working directory unless asked for; the cached grid of a directory is its own; files of any size can be cleaned up.", "quantifier": "all environments, file systems and hash functions", "why_tests_cant": "Collisions of hashes and huge files do not occur in tests.", "anchors": ["python/getdist/__init__.py: get_config, _get_cache_dir, make_cache_dir", "python/paramgrid/batchjob.py: grid_cache_file, readobject", "python/cleanup.py: fsizestr"]}
{"id": "C261", "title": "Pictures of tables are made without traces", "statement": "Making the picture of a table restores the working directory, removes its temporary files and changes no other file than that of the picture; with an absolute file name, or none, the picture is in the file that is named, or is what is returned, and then no file is left.", "quantifier": "all documents, names of files, states of the file system and results of LaTeX and dvipng", "why_tests_cant": "Tests have no LaTeX.", "anchors": ["python/getdist/types.py: ResultTable.tablePNG"]}
{"id": "C262", "title": "Pictures of tables are where they are asked for, or there is an error", "statement": "The file that is named holds the picture also if the name is relative; if LaTeX is missing or fails this is reported; files of before are not taken for the picture.", "quantifier": "all names of files and results of LaTeX", "why_tests_cant": "Tests have no LaTeX.", "anchors": ["python/getdist/types.py: ResultTable.tablePNG"]}
{"id": "C263", "title": "Lists of a grid and jobs of single files are complete", "statement": "The list of a grid has every selected run once, by its name or normalised name and with its group, ordered by the tags of parameters and within them as in the grid; with the option only runs with chains; the job of settings files has the name of the first and the files without their extension.", "quantifier": "all grids, filters, options and names with one extension", "why_tests_cant": "It is a statement about all grids.", "anchors": ["python/listGrid.py", "python/paramgrid/batchjob_args.py: sortedParamtagDict", "python/runMPI.py"]}
{"id": "C264", "title": "All options of the list of a grid have an effect, and files keep their names", "statement": "Runs that exist are left out with --notexist and runs that have converged with --converge; of the name of a settings file only the extension is left out.", "quantifier": "all grids, options and names of files", "why_tests_cant": "Tests do not run the scripts.", "anchors": ["python/listGrid.py", "python/runMPI.py"]}
{"id": "C265", "title": "Highlighting of strings over several lines ends and follows single quotes", "statement": "Colouring a line of a script always ends; a line without triple quotes is inside a string exactly if the line before was, and is then coloured completely; with one triple quote it changes, and from there to the end, or from the begin to there, is coloured.", "quantifier": "all lines and states", "why_tests_cant": "It is a loop over all texts.", "anchors": ["python/getdist/gui/SyntaxHighlight.py: match_multiline"]}
{"id": "C266", "title": "Highlighting follows all strings of a line", "statement": "After a line with any number of triple quotes the state is that of the text, and only strings are coloured.", "quantifier": "all lines and states", "why_tests_cant": "Tests do not open the window.", "anchors": ["python/getdist/gui/SyntaxHighlight.py: match_multiline"]}
{"id": "C267", "title": "The limits of a chain are those of its files, calls and settings", "statement": "Ranges are read from the .ranges file of the chain, otherwise from the cobaya file; setRanges gives each parameter named, or at the same position of a list, the limits given, and leaves all others; a set of bounds replaces all; after the statistics are computed getLower and getUpper give the limits of the settings where they give any and otherwise the ranges, and nothing for other names.", "quantifier": "all chains, arguments, settings and files", "why_tests_cant": "Tests set one range of one parameter; partly given ranges, lists, files and settings combine in too many ways.", "anchors": ["python/getdist/mcsamples.py: MCSamples.setRanges, _initLimits, _readRanges, getUpper, getLower", "python/getdist/parampriors.py: ParamBounds.setRange"]}
{"id": "C268", "title": "Setting ranges is done at once, completely or not at all", "statement": "A call of setRanges that is refused changes nothing; getUpper and getLower show new ranges at once; limits in the settings that cannot be used are refused and those removed no longer apply.", "quantifier": "all chains, arguments and settings", "why_tests_cant": "Tests do not look at the samples after an exception nor change settings twice.", "anchors": ["python/getdist/mcsamples.py: MCSamples.setRanges, _initLimits, getUpper, getLower"]}
{"id": "C269", "title": "The packaging script reads version, description and launcher", "statement": "The version of the package is the one of the first line of its source that assigns a version, and there is an error exactly when there is none; the description is the text before the last rule of equal signs, refused when there is none; the launcher has the lines of its template with the interpreter in the line that sets it.", "quantifier": "all source, readme and template texts", "why_tests_cant": "Tests do not build packages, and one text of each kind shows nothing of others.", "anchors": ["python/setup.py: find_version, get_long_description, make_app"]}
{"id": "C270", "title": "The packaging script reads every version and whole sections", "statement": "Every assignment of a version that python accepts is read as written; the description ends at the end of a section.", "quantifier": "all source and readme texts", "why_tests_cant": "Tests do not build packages.", "anchors": ["python/setup.py: find_version, get_long_description"]}
{"id": "C271", "title": "Odd moments of the data follow exchanges and mirror images of the parameters", "statement": "The moments that decide the correlation of a two-dimensional kernel are computed at times found from the moments two orders above; exchanging the parameters exchanges their orders; for an odd number of bins a mirror image changes their sign and independent parameters have none; in general the sign changes up to the contribution of the highest frequency; moments of a mirror image give the same widths and the opposite correlation.", "quantifier": "all data, numbers of bins, times and orders", "why_tests_cant": "Tests compare densities of a few samples; symmetries for all data are statements about all transforms.", "anchors": ["python/getdist/kde_bandwidth.py: KernelOptimizer2D.psi_odd, func2d_odd, AMISE, get_h"]}
{"id": "C272", "title": "Kernels of independent parameters have no odd moments", "statement": "For any number of bins independent parameters have no odd moments and mirror images have the opposite ones.", "quantifier": "all data and numbers of bins", "why_tests_cant": "Tests do not look at moments.", "anchors": ["python/getdist/kde_bandwidth.py: KernelOptimizer2D.psi_odd"]}
{"id": "C273", "title": "The table of likelihood statistics lists the extremes of every parameter", "statement": "The text of the likelihood statistics has the summary, an empty line, a header and one line per parameter in order; each line splits into name with a star if derived, value at the best sample, lower and upper extreme of the first and of the second region, and label; numbers read back to eight figures and stand in columns of fifteen characters; reading the text gives the likelihoods of the summary.", "quantifier": "all statistics with at least one parameter", "why_tests_cant": "Tests do not look at the text; names, lengths and sizes of numbers are unlimited.", "anchors": ["python/getdist/types.py: LikeStats.__str__, headerLine, loadFromFile", "python/getdist/paramnames.py: ParamList.parFormat, name"]}
{"id": "C274", "title": "Likelihood statistics can be written, read and written again", "statement": "Statistics without parameters and statistics read from a file can be turned into text; reading the text gives the extremes back; columns are kept apart.", "quantifier": "all statistics", "why_tests_cant": "Tests do not read the statistics back.", "anchors": ["python/getdist/types.py: LikeStats.__str__, loadFromFile"]}
{"id": "C275", "title": "Arrays of plots keep roots, parameters and labels together", "statement": "plots_2d_triplets and plots_3d give every triplet its own subplot, row by row inside the grid, with its own root and parameters and the limits asked for; each legend label stands beside the line of its own root, in the default order, in reverse order and in any order given; a legend is drawn exactly when labels are wanted and given.", "quantifier": "all lists of triplets, roots, labels and orders", "why_tests_cant": "Tests look at no more than a few figures, never at which line carries which label.", "anchors": ["python/getdist/plots.py: plots_2d_triplets, plots_3d, add_legend, finish_plot"]}
{"id": "C276", "title": "The legend of an array of 3D plots has one line for each contour", "statement": "After plots_3d there is one legend line per contour root, the legend can be reversed, and every contour drawn in some subplot has its line; an empty list of triplets gives an empty figure.", "quantifier": "all lists of sets of parameters and roots", "why_tests_cant": "Tests do not inspect legend handles.", "anchors": ["python/getdist/plots.py: plots_3d, plot_3d, add_2d_contours, add_legend, plots_2d_triplets"]}
