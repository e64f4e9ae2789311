# Formal model of the CosmoMC python code: design

Target: `/repo/python` (getdist, paramgrid, CMBlikes, batch scripts).  Lean 4.33.0, project in `lean/`.

## Trusted base

* Lean's kernel.  Axioms used by property theorems: at most `propext`, `Classical.choice`, `Quot.sound`
  (checked with `#print axioms`, see `tools/axioms.sh`).  No axioms of our own, no `sorry`,
  no `native_decide`, no `bv_decide`.
* The reading of the python source.  Every Lean definition that models code cites file and lines.
* Python `str` is modelled as `List Char` (unicode scalar values), `int` as `Int`/`Nat`, `dict` as an
  insertion-ordered association list with distinct keys, exceptions as values (`Except`).
* Python floats are modelled as exact rationals (or an arbitrary linear ordered field): **floating point rounding,
  NaN and infinities are not modelled** except where an explicit `inf` value is part of the logic.
* numpy / scipy / os / queue commands are modelled by the behaviour they document
  (`searchsorted`, `argsort`, `cumsum`, `unique`, `bincount`, `os.path.join`, `shutil.move`, ...);
  these small models are in `Verif/Py` and in the module that uses them and are part of the trusted reading.
* Not modelled: plotting (`plots.py`, `gui/`), FFT internals, bandwidth optimisation, linear algebra routines
  (`eigh`, `svd`, `cholesky`), the Fortran sources, yaml parsing, argument parsing by `argparse`, subprocesses.

## Layout

* `Verif/Py/*.lean`      python built-ins on `List Char`, association-list dictionaries, numpy-like helpers.
* `Verif/Model/*.lean`   the model, function by function, with citations.
* `Verif/Lemmas/*.lean`  helper lemmas.
* `Verif/Props/*.lean`   the property theorems (and the small independent specifications they refer to)
                         with a non-vacuity `example` beside each.

When the code does not have a property, the negation is proved with a concrete witness (theorem name ends in
`_fails` or `_counterexample`) and the part that does hold is proved as `..._partial`.


Several properties as first written had parts that hold and parts that do not.  They were split: the part that holds keeps
the number (its statement and quantifier in `properties.jsonl` say where it holds), and the refuted part is a property of its
own from C85 on, with status partial and the refutations as its theorems; the notes refer to each other.  No part was dropped.

## Plan and state per property

Theorem names are in `MANIFEST.json`.  "partial" means that the statement of `properties.jsonl` is not true of the code as it stands, or that a stated part is not modelled; the last column says which.

| id | property | modules | method | status | what is missing or false |
|----|----|----|----|----|----|
| C01 | Ini save/load round trip | `IniFile` | `IniFile.fileLines`, `readFile` on lines: round trip by induction on the table; per-line parse/print lemma | proved | Round trip for every table with one-line names/values. The excluded case (values containing $( while expansion is on) is shown to fail. |
| C02 | Ini precedence: the including file beats its DEFAULT files, and earlier DEFAULTs beat later ones | `IniFile` | `readFile` over an abstract file system with fuel: refinement: final table = first definition in the flattened definition stream | proved |  |
| C03 | Ini duplicate definitions are rejected, never silently merged | `IniFile` | same: error iff a key occurs twice in the include stream | proved |  |
| C04 | Every setting is written exactly once, in read order then alphabetically | `IniFile` | `fileLines`: permutation + order facts by induction on read order | proved |  |
| C05 | Placeholder expansion replaces exactly the $(name) references | `IniFile` | `expand_placeholders`: token grammar: `expand (render ts) = eval ts` by induction | proved |  |
| C06 | Comments belong to the setting they precede | `IniFile` | `readFile` comment state: characterise stored comments; counterexample for skipped duplicates | proved |  |
| C07 | .paramnames save/load round trip | `ParamNames` | `ParamInfo.string/setFromString`, keyword store: round trip by induction | proved | For all representable parameters; label_bang_fails shows that the exclusion of '!' from labels is needed. |
| C08 | Keyword save/load round trip with LaTeX escaping | `ParamNames` | `ParamInfo.string/setFromString`, keyword store: round trip by induction | proved | The keyword provider (external) is modelled as a table of value/comment pairs. |
| C09 | Merging renames computes alias classes | `ParamNames` | `mergeRenames` loop: loop invariant: output classes = connected components | proved |  |
| C10 | Parameter lookup by name, alias and index agree | `ParamNames` | `parWithName`, `numberOfName`, `parsWithNames`, `fnmatchcase`: first-match characterisation; glob matcher against inductive spec | proved |  |
| C11 | Glob expansion of parameter names is complete and ordered | `ParamNames` | `parWithName`, `numberOfName`, `parsWithNames`, `fnmatchcase`: first-match characterisation; glob matcher against inductive spec | proved |  |
| C12 | Weighted quantiles (confidence limits) are correct quantiles | `Confidence` | `confidence` on sorted weighted samples: cumulative sums + searchsorted characterisation | proved |  |
| C13 | Thinning to single samples keeps the right number of samples in order | `Thin` | `thin_indices_single_samples`: loop invariant linking running sum and emitted count | proved |  |
| C14 | Weighted mean, variance and covariance are well behaved | `Samples` | exact weighted sums over a field: algebra, Cauchy-Schwarz on finite sums | proved | Exact arithmetic (any ordered field). varList_where_fails: var of a list of vectors ignores its where argument. |
| C15 | Correlation matrix is normalised | `Samples` | exact weighted sums over a field: algebra, Cauchy-Schwarz on finite sums | proved | sqrt is any function with sqrt x * sqrt x = x on non-negative x. |
| C16 | Row operations keep samples, weights and likelihoods aligned | `Samples` | state machine of `WeightedSamples` with caches: invariant by induction over operations | proved |  |
| C17 | Cached statistics are never stale | `Samples` | state machine of `WeightedSamples` with caches: invariant by induction over operations | proved |  |
| C18 | Importance reweighting composes | `Samples` | weights with `exp` abstracted as a homomorphism: algebra | proved | exp is any positive function with exp (x+y) = exp x * exp y; Real.exp is an instance. |
| C19 | Combining chains and splitting them again is lossless | `Chains` | `Chains` with offsets: list splitting lemmas, invariants | proved | For chains with likelihoods, none of them empty and no row below the weight cut; the _fails theorems show each of these conditions is needed. |
| C20 | Filtering keeps track of chain boundaries | `Chains` | `Chains` with offsets: list splitting lemmas, invariants | proved | Boolean masks and weighted thinning. filter_indices_fails: an index list (also allowed by the documentation) gives wrong boundaries. |
| C21 | Burn-in removal drops the stated leading rows of each chain | `Chains`, `Samples` | `Chains` with offsets: list splitting lemmas, invariants | proved |  |
| C22 | Dropping fixed parameters keeps names and columns aligned and loses no varying data | `Chains`, `Samples` | `Chains` with offsets: list splitting lemmas, invariants | proved |  |
| C23 | Chain file selection | `ChainFiles` | file-name matcher: characterisation of accepted names | proved |  |
| C24 | Merging covariance matrices: first file wins, new parameters are appended | `Cov` | `CovMat` over functions/lists: entry-wise characterisation | proved |  |
| C25 | Covariance file round trip and rescaling | `Cov` | `CovMat` over functions/lists: entry-wise characterisation | proved |  |
| C26 | Parameter ranges file round trip | `Bounds` | `ParamBounds`: round trip; history semantics | proved |  |
| C27 | Setting a range | `Bounds` | `ParamBounds`: round trip; history semantics | proved |  |
| C28 | Job index stays consistent | `JobQueue` | `jobIndex` dictionaries; file system with crash points: invariant / counterexamples | partial | Proved for histories in which a new job shares no id, name or run name with a live job. False when a run is submitted again (resubmit_fails, for every index) or two processes add jobs at once. |
| C29 | The job index file survives a crash during saving | `JobQueue` | `jobIndex` dictionaries; file system with crash points: invariant / counterexamples | partial | False for a crash between removing the old file and renaming the new one: the next load gives an empty index. |
| C30 | Job resources divide the cores consistently | `JobQueue` | `jobSettings`, `getDefaulted`, `runbatch` accumulator: decision logic, induction over run list | proved |  |
| C31 | Option precedence for job settings | `JobQueue` | `jobSettings`, `getDefaulted`, `runbatch` accumulator: decision logic, induction over run list | proved |  |
| C32 | Every requested run is submitted exactly once | `JobQueue` | `jobSettings`, `getDefaulted`, `runbatch` accumulator: decision logic, induction over run list | proved |  |
| C33 | Data combination tags do not depend on the order data sets were listed | `Batch` | grid naming, generation, filtering, resolution, options: permutation invariance, induction | proved |  |
| C34 | Grid generation yields each combination once | `Batch` | grid naming, generation, filtering, resolution, options: permutation invariance, induction | proved |  |
| C35 | Batch filters select exactly the matching runs | `Batch` | grid naming, generation, filtering, resolution, options: permutation invariance, induction | proved |  |
| C36 | Name resolution is exact first, then unique up to data order | `Batch`, `ChainGrid` | grid naming, generation, filtering, resolution, options: permutation invariance, induction | proved |  |
| C37 | Generated settings follow the documented override order | `Batch` | grid naming, generation, filtering, resolution, options: permutation invariance, induction | proved |  |
| C38 | Contour levels enclose the requested mass | `Density` | densities over ordered field: sums over sorted lists | proved |  |
| C39 | Trapezoid normalisation of densities | `Density` | densities over ordered field: sums over sorted lists | proved |  |
| C40 | FFT size choice | `Convolve` | FFT table, slicing: full-table decision lifted by a lemma; index algebra | proved |  |
| C41 | Convolution output sizes and alignment | `Convolve` | FFT table, slicing: full-table decision lifted by a lemma; index algebra | proved |  |
| C42 | Number formatting keeps the requested significant figures | `NumFmt` | number formatting, table layout, limit tags: decimal arithmetic, division algebra | proved | Exact decimals; rounding half even is proved to be the nearest decimal with n figures for every finite decimal. |
| C43 | Result tables list every parameter exactly once | `Table` | number formatting, table layout, limit tags: decimal arithmetic, division algebra | proved | For at least one parameter and column; an empty list or zero columns raise an exception. |
| C44 | Cached chain analysis is only reused when valid | `LoadCache` | cache validity predicate: decision logic against file-time model | proved |  |
| C45 | Histogram bin indices are always valid | `Kde1D` | densities over ordered field: sums over sorted lists | proved |  |
| C46 | Combining two samples gives each the stated total weight | `Combine` | sample combination: algebra | proved |  |
| C47 | Likelihood matrix packing is lossless | `CMBlikes` | triangular packing, aliasing: index algebra; counterexample with aliasing model | proved | Names must be distinct, non-empty and without the separator character (one letter each without map_names); separator_in_name_fails shows why. |
| C48 | Maps required only for corrections are not used in the likelihood | `CMBlikes` | triangular packing, aliasing: index algebra; counterexample with aliasing model | partial | True without maps_use. With maps_use every required map is also used in the likelihood, because require_map is a numpy view of use_map (proved for all settings). |
| C49 | Saved limit types survive the table format | `MargeStats` | number formatting, table layout, limit tags: decimal arithmetic, division algebra | proved |  |
| C50 | Copied chains with burn-in removed keep the tail of each chain file | `GridFiles` | file copying: list algebra | proved |  |
| C51 | An ini object keeps belonging to the file it was loaded from | `IniFile` | state of the ini object over load/save sequences; relative path algebra | partial | False when the file has INCLUDE/DEFAULT lines (loaded_filename_fails); proved otherwise. |
| C52 | Boolean settings survive saving and are never guessed | `IniFile` | round trip through the text form; decision table | proved |  |
| C53 | Updating aliases of a parameter list adds exactly the linked names | `ParamNames` | refinement to alias classes computed by mergeRenames | proved |  |
| C54 | Sublists of parameters keep order and exactly the requested entries | `ParamNames` | list filtering lemmas | proved |  |
| C55 | Merging renames in the default mode loses no alias declaration | `ParamNames` | loop invariant, counterexample for the default mode | partial | False of the code (mergeRenames_drops_fails, mergeRenames_leftmost_fails); proved: entries returned are whole classes, and a class is dropped only if each input has none or all of its names as keys. |
| C56 | INCLUDE and DEFAULT lines name exactly the bracketed file | `IniFile` | parser characterisation against a bracket grammar | proved | include_unclosed_fails: an unclosed bracket loses the last character of the file name. |
| C57 | Chains stay apart through any history of operations | `Chains` | invariant by induction over operation histories | proved |  |
| C58 | Parameter lookup by name returns the right column, also after adding or removing parameters | `Chains` | invariant of names and columns over operations | proved |  |
| C59 | Saved chains are found again under the same root | `ChainFiles` | composition of writer and file matcher | proved |  |
| C60 | Burn-in is removed exactly once | `Chains` | decision logic over options and flags, counterexamples | proved |  |
| C61 | Columns of sample files mean what the option says | `Chains` | column bookkeeping against a row specification | proved |  |
| C62 | Placeholders in job templates are replaced by their values | `JobQueue` | replacement loop against an independent template semantics | partial | Proved for templates whose placeholders are separated from other text and values without #. |
| C63 | Only the requested jobs are cancelled | `JobQueue` | text parsing of queue output; set equalities | proved |  |
| C64 | Queued and running jobs are recognised | `JobQueue` | text parsing of queue output; set equalities | proved |  |
| C65 | Importance run tags list their data once and are marked once | `Batch` | induction over importance levels | proved |  |
| C66 | Every chain found in folders keeps a name of its own | `ChainGrid` | invariant of the unique-name loop; counterexample | partial | Proved when a root name occurs at most twice in different folders. False for three chains (two get the same name) and for a chain found twice in one folder (IndexError). |
| C67 | Equal-density limits of a 1D density | `Density` | characterisation of the threshold on the interpolated density | proved |  |
| C68 | Hard prior limits do not bias a 1D density | `Kde1D` | algebra of kernel moments at the boundary, exact arithmetic | proved |  |
| C69 | Reported parameter bounds | `Kde1D` | decision table; state history counterexample | proved |  |
| C70 | A value with errors is printed with the decimals of its error | `NumFmt` | decimal arithmetic, bounds on rounding | partial | The decimals of value and errors agree when the printed figures of the value reach those of the error; false in general (9.9609375 +- 1 gives 9.96 +- 1.0, 123456 +- 30 gives 123500 +- 30). |
| C71 | All rows of a result table have the same number of cells | `Table` | induction over rows | partial | Proved when all results have a value for each parameter and show the same columns. False otherwise; best fit tables raise a TypeError; the number formatter option is ignored. |
| C72 | Marginalised limits are of the kind asked for | `MargeStats` | decision logic against a specification of each kind of limit | proved |  |
| C73 | Parameter objects hold the samples of every name | `Combine` | invariant of attribute dictionary; name characterisation | proved |  |
| C74 | Gaussian band power chi-squared is theory minus data | `CMBlikes` | index algebra, quadratic form, counterexamples | proved | Linear algebra is exact and covinv is a parameter. |
| C75 | Spectra are read from the columns with their names | `CMBlikes` | table reading characterisation | proved |  |
| C76 | Exact likelihood is zero only for agreement | `CMBlikes.HL` | real symmetric matrices, spectral theorem | proved | Real arithmetic. |
| C77 | HL transform does not depend on the eigenvectors | `CMBlikes.HL` | real symmetric matrices, spectral theorem | proved | Real arithmetic; eigh is any function with the documented properties. |
| C78 | Cleaning up removes only files of the selected runs | `GridFiles` | glob semantics, set of removed files | proved |  |
| C79 | Chain files of a run are found and judged by number and date | `JobStatus` | directory as finite map; characterisation of each question | proved |  |
| C80 | Results older than the chains are recomputed | `JobStatus` | directory as finite map; characterisation of each question | partial | Only the date of the first chain is looked at (characterised exactly); changes of the others are never noticed. |
| C81 | The convergence value of a run is read back as written | `JobStatus` | text round trip, number formatting bounds | proved |  |
| C82 | Runs submitted are those that satisfy all options | `JobStatus` | decision logic against a specification per option | proved |  |
| C83 | The convergence value is the worst ratio over all directions | `GelmanRubin` | generalised eigenvalues, characteristic polynomial, variational characterisation | proved | Real arithmetic; eigh and eigvalsh are any functions with the documented properties (shown to exist). |
| C84 | Correlation lengths and effective sample numbers are as documented | `AutoCorr` | sums over rows, invariance, Cauchy-Schwarz, loop invariants | proved |  |
| C85 | Comments in DEFAULT files belong to the setting they precede | `IniFile` | see C06; witnesses | partial | False: the comment of a setting that is skipped because it is already defined is attached to the next setting. For the loaded file itself see comments_direct (C06). |
| C86 | Chain boundaries stay right under the other operations on combined chains | `Chains` | see C21, C57; witnesses | partial | False for each of the four. For burn-in removal the rows kept are right (burn_combined_rows_partial), their boundaries are not. |
| C87 | Dropping fixed parameters from separate chains loses no varying data | `Chains` | see C22; witnesses | partial | Alignment is proved. False: only the first chain is inspected, so data varying in the other chains is lost. |
| C88 | Chain file selection works for every root and never takes another root's file | `ChainFiles` | see C23; witnesses | partial | False: an unnumbered chain file is also taken as a chain of a shorter root; roots without directory and searches with leading directories raise errors or give wrong paths. What holds is C23. |
| C89 | Covariance matrices of any size can be read back, merged and used | `Cov` | see C24, C25; witnesses | partial | False: a one parameter matrix cannot be read back; merged matrices can have correlations above one; a zero entry in the first file hides the value of the second in covcomb. correlation_spec holds for every matrix. |
| C90 | Ranges can be widened, unset and stored without becoming fixed values | `Bounds` | see C26, C27; witnesses | partial | False for each: a range cannot be unset, an empty range (upper below lower) counts as fixed, rounding in the file can turn a narrow range into a fixed value, names with blanks are not read back. |
| C91 | Senseless resource requests are refused and consistent ones accepted | `JobQueue` | see C30; witnesses | partial | False: zero nodes or cores are accepted; the default number of chains ignores coresPerNode; more files than runsPerJob gives chains without threads. What holds is C30. |
| C92 | Option precedence for every job option, however given | `JobQueue` | see C31; witnesses | partial | False for each of the three. What holds is C31. |
| C93 | Every batch can be submitted, under job names of its own | `JobQueue` | see C32; witnesses | partial | False: under python 3 joined names of 70 or more characters raise a TypeError; different groups can have the same joined name; .ini inside a name is removed too. What holds is C32. |
| C94 | Data combinations match whatever the order and spelling of the names | `Batch` | see C33; witnesses | partial | False for each. What holds is C33. |
| C95 | Grid generation loses no importance run | `Batch` | see C34; witnesses | partial | Proved for importance runs of full runs in grids without filters and extra runs. False for those applied to an importance run that is removed as a duplicate, which have no other copy; and data sets given to the constructor of a group make the grid fail. |
| C96 | Batch filters can be combined freely | `Batch` | see C35; witnesses | partial | False: with a data tag the filters on data names are ignored, with a parameter tag those on parameters. Proved when they are not combined. |
| C97 | Name resolution works for names with underscores and in every lookup | `Batch` | see C36; witnesses | partial | False for both. What holds is C36. |
| C98 | The options of a job win over those of its data | `Batch` | see C37; witnesses | partial | False for each. What holds is C37. |
| C99 | Contour levels with half weights for edge bins and mass outside the grid | `Density` | see C38; witnesses | partial | The norm is that of the trapezoid rule, and nothing changes if the density vanishes at the edges. False otherwise: edge bins are sorted by their halved density; the missing mass is not part of the total. |
| C100 | Trapezoid normalisation in any number of dimensions | `Density` | see C39; witnesses | partial | Proved for arrays with at least as many points on the first axis as axes; otherwise IndexError. Normalising needs a spacing that is never set. |
| C101 | FFT lengths are products of small primes | `Convolve` | see C40; witnesses | partial | All entries but one, which is a multiple of seven. |
| C102 | Convolution is right for all lengths and independent of its cache | `Convolve` | see C41; witnesses | partial | False for each: wrong length, reused ids, empty result, shared cache keys, AttributeError. What holds is C41. |
| C103 | A cached analysis always equals reading the chains again | `LoadCache` | see C44; witnesses | partial | False: a chain file added with an old date is ignored; limits in the settings are ignored. The conditions under which it is true are in cache_sound (C44). |
| C104 | Bins of the bandwidth estimate are centred on the samples | `Kde1D` | see C45; witnesses | partial | False: it truncates instead of rounding and rejects samples outside given limits. Its indices are valid (kdeBin_valid, C45). |
| C105 | Dotted parameter names can be used everywhere | `Combine` | see C46, C73; witnesses | partial | False: combining raises AttributeError for a common dotted name; a parameter called a.value besides a and a.b is lost. What holds is C46 and C73. |
| C106 | Statistics files work for every label and parameter list | `MargeStats` | see C49; witnesses | partial | False for both. What holds is C49. |
| C107 | Copying never loses or duplicates burn-in removal | `GridFiles` | see C50; witnesses | partial | False: a fraction of one or more copies whole files; an extension like * copies the whole chain over the shortened one; a run already without burn-in is shortened again. What holds is C50. |
| C108 | Chains saved under a name ending in .txt are found again | `ChainFiles` | see C59; witnesses | partial | False. What holds is C59. |
| C109 | The command line tool removes burn-in exactly once | `Chains` | see C60; witnesses | partial | Proved for fractions without properties file. False: a number of rows is removed twice, and a chain marked burn_removed loses rows. |
| C110 | loadChains passes on what the columns mean | `Chains` | see C61; witnesses | partial | False: the option never reaches the file reader. The reader itself is right (C61). |
| C111 | The job scripts cancel and list the right jobs under every python version | `JobQueue` | see C63, C64; witnesses | partial | False: the script never deletes by --delete_ids and deletes the whole batch with --delete_id_range; under python 3 the listing is always found empty and nothing is cancelled. What holds is C63 and C64. |
| C112 | Importance runs keep all of the parameter tag | `Batch` | see C65; witnesses | partial | False when the parameter tag has text before base: it is lost. What holds is C65. |
| C113 | Equal-density limits exist and are nested | `Density` | see C67; witnesses | partial | False: not monotone in the probability, IndexError for small probabilities and flat maxima, only the first result for a list. Proved: the density at the limits is between the grid density that encloses the wanted mass and the next higher one (trial_partial). |
| C114 | Hard prior limits do not bias a 1D density on a coarse grid | `Kde1D` | see C68; witnesses | partial | False: the window vanishes and with it the mask at the limits. What holds is C68. |
| C115 | Reported parameter bounds do not depend on what was computed before | `Kde1D` | see C69; witnesses | partial | False: before, every prior limit is reported. What holds is C69. |
| C116 | Settings for two tail limits are obeyed | `MargeStats` | see C72; witnesses | partial | False: the flags are overwritten by those of the density. What holds is C72. |
| C117 | Datasets of any form are used correctly or rejected | `CMBlikes` | see C74, C75; witnesses | partial | False for each (the Fortran code deallocates the noise after the first use). What holds is C74 and C75. |
| C118 | Cleaning up spares the importance sampled versions of a run | `GridFiles` | see C78; witnesses | partial | False: the default pattern name_*.* also removes the chains of importance sampled versions of the run. Files of runs that do not start with the name and an underscore stay (clean_default, C78). |
| C119 | Chains are counted from one and gaps are always noticed | `JobStatus` | see C79; witnesses | partial | False: a given number of chains counts from zero; gaps of two or more are not noticed; no chains raises ValueError. What holds is C79. |
| C120 | Runs of unknown convergence are listed and submitted | `JobStatus` | see C81, C82; witnesses | partial | False for each. What holds is C81 and C82. |
| C121 | Correlation lengths have sensible defaults and limits | `AutoCorr` | see C84; witnesses | partial | False: the default range is the number of parameters; if correlations never fall below the threshold the length is that of independent samples; fewer than ten rows raise IndexError; the third correlation is counted half. What holds is C84. |
| C122 | Best-fit files are read as they are written | `BestFit` | grammar of shown texts, parser correctness by induction over lines | proved |  |
| C123 | Best-fit files: every parameter line and contribution is found again | `BestFit` | general refutations | partial | The statement is false for the code as it is; each part is refuted in general. What holds is C122. |
| C124 | Likelihood statistics are ordered, nested and survive writing | `BestFit` | Jensen's inequality on weighted lists; characterisation of sorted cumulative sums; text round trip | proved | Means are over the real numbers; rounding is not modelled. |
| C125 | Likelihood statistics: N-dimensional region always exists and holds its fraction; summary loses nothing | `BestFit` | general refutations | partial | The statement is false for the code as it is; each part is refuted in general. What holds is C124. |
| C126 | Two-dimensional densities: range, exactness at limits and symmetries | `Kde2D` | refinement of the array program to sums over the window, then algebra: normal equations of the linear fit (positive determinant by Cauchy-Schwarz), invariants of rounds, equivariance | proved | Exact arithmetic; exp and sqrt by their laws; the kernel optimizer is not modelled. |
| C127 | Two-dimensional densities: settings are honoured and weights have no scale | `Kde2D` | general refutations | partial | The statement is false for the code as it is; each part is refuted. What holds is C126. |
| C128 | Weight-one samples are chosen in proportion to weight | `Singles` | characterisation of the mask by index; measure theory over any probability space (lintegral of a finite sum of indicators); text round trip | proved | Numbers drawn are uniform random variables; exact arithmetic apart from the printed digits. |
| C129 | Weight-one samples: zero weights, any factor, missing likelihoods, thinned files | `Singles` | general refutations and one concrete text | partial | The statement is false for the code as it is; each part is refuted. What holds is C128. |
| C130 | Splits of the samples have equal weight and cover all rows | `Singles` | induction on cumulative sums; telescoping of the parts; quantile theorem C12 for each part | proved | Exact arithmetic; sqrt is a parameter. |
| C131 | Splits of the samples: any weights, heavy rows | `Singles` | general refutation and a concrete one | partial | The statement is false for the code as it is; each part is refuted. What holds is C130. |
| C132 | The most correlated pairs are listed strongest first | `Singles` | loop invariant of the scan (best so far below the bound), induction on the number of plots | proved | Correlations are at most one in absolute value. |
| C133 | The most correlated pairs: ties and order of calls | `Singles` | refutations | partial | The statement is false for the code as it is; each part is refuted. What holds is C132. |
| C134 | Numbers of effective samples are ordered | `Singles` | Cauchy-Schwarz on lists by induction | proved | Before rounding to integers; at least two rows for the outliers. |
| C135 | The Raftery-Lewis convergence numbers mean what they say | `Raftery` | induction along the chain for the counts; log-sum inequality term by term for the statistics; powers of a two-state transition matrix; loops by induction on the number of remaining thinnings | proved | Over the reals with exact logarithms. Exceptions caught by the code are modelled as such. |
| C136 | Raftery-Lewis numbers exist for good chains | `Raftery` | refutations | partial | The statement is false for the code as it is; each part is refuted. What holds is C135. |
| C137 | Correlation lengths of several chains follow their definition | `Converge` | induction over the chains on top of the theorem for one; variance decomposed over chains | proved | Exact arithmetic; the transforms satisfy the convolution theorem. |
| C138 | The effective number of samples shows failure to converge | `Converge` | refutations | partial | The statement is false for the code as it is; each part is refuted. What holds is C137. |
| C139 | The variance of the chain means is reported consistently | `Converge` | law of total variance; the Gelman-Rubin extremal property applied to one coordinate | proved | Real numbers. |
| C140 | Correlations at given distances | `Converge` | loop invariant: entries below the current range have all chains so far | proved | Which rows thinning keeps is C13. |
| C141 | Correlations are shown up to the number of steps asked for | `Converge` | refutation | partial | The statement is false for the code as it is. What is shown is given exactly by corrSteps_spec. |
| C142 | Principal components mean what the report says | `PCA` | bilinear form of the correlation matrix as an average over samples; eigenvectors of a symmetric matrix; completing the square for conditional parameters; logarithms of the printed powers | proved | Real numbers; eig, argsort and argmax are any functions satisfying what numpy documents. Formulas before rounding of the printed numbers. |
| C143 | Principal components: missing parameters, default map, conditional errors, equal eigenvalues | `PCA` | refutations | partial | The statement is false for the code as it is; each part is refuted. What holds is C142. |
| C144 | The command line analyses the chains given, with the settings given | `CommandLine` | case analysis; removal of an ending whose first character does not repeat; induction on the found files | proved | isfile and glob are parameters. |
| C145 | The command line does the right thing with unusual roots | `CommandLine` | refutations, non-termination by induction on the depth | partial | The statement is false for the code as it is; each part is refuted. What holds is C144. |
| C146 | Settings select the parameters they name | `CommandLine` | induction on words and parameters; injectivity of the join; round trip through a reader of literals | proved | Script text: the lists of names; a reader of python string literals is the specification. |
| C147 | Settings for plots: nothing twice, nothing else, nothing lost | `CommandLine` | refutations | partial | The statement is false for the code as it is; each part is refuted. What holds is C146. |
| C148 | Parameters and limits are read from Cobaya's information | `Cobaya` | case analysis of the forms of a prior; induction on the lists of removed, added and extra parameters | proved | The yaml reader is not modelled: the dictionary it gives is the input. Intervals of scipy's distributions are a parameter. |
| C149 | All information Cobaya writes can be read, and reading does not change it | `Cobaya` | refutations | partial | The statement is false for the code as it is; each part is refuted. What holds is C148. |
| C150 | Burn-in and sampler of new samples follow the arguments | `Cobaya` | case analysis of the sources | proved |  |
| C151 | Burn-in is never removed from samples that have none | `Cobaya` | refutations; burnRemoved_zero shows that the lookup never succeeds | partial | The statement is false for the code as it is; each part is refuted. With burn_removed in the properties file nothing is removed (props_win). |
| C152 | Gaussian mixtures are the distributions they say | `GaussMix` | multivariate Gaussian integral by a square root of the precision matrix and change of variables; Schur complements for blocks; induction on the components | proved | Real numbers; integrals are those of Mathlib. |
| C153 | Gaussian mixtures: ranges and random samples | `GaussMix` | folds over components and limits; induction on rounds | proved | Random numbers are any sequence. |
| C154 | Gaussian mixtures: total covariance, known parameters of several components, limits | `GaussMix` | refutations | partial | The statement is false for the code as it is; each part is refuted. What holds is C152 and C153. |
| C155 | Axis ticks fit and the search for them ends | `Ticks` | invariant of nested search loops (every list kept is a candidate), exact characterisation of the rounding helpers by Galois conditions, termination measures | proved | Exact arithmetic; scale_range, the formatter and font sizes are parameters. |
| C156 | Axis ticks: within bounds, round numbers, last resort | `Ticks` | refutations | partial | The statement is false for the code as it is; each part is refuted. What holds is C155. |
| C157 | The supernova likelihood integrates over unknown magnitudes | `SN` | Gaussian integrals by completing the square, iterated for two magnitudes; invariant of the cached inverse over sequences of calls; log-sum-exp identity; invariant of the reading loop | proved | Real numbers; the settings file is that of the settings model; the circle of grid points and default options are as in the code. |
| C158 | The supernova likelihood: blank lines, comments, cached inverse, marginalisation without precomputed matrices | `SN` | refutations | partial | The statement is false for the code as it is; each part is refuted. What holds is C157, for the inverse calls_ok. |
| C159 | The DES likelihood compares each measurement used with its own theory | `DES` | invariant of the reading loop; positive definiteness of a block and comparison of quadratic forms; induction over groups | proved | Data sets in text form; power spectra, splines and Bessel functions are parameters. |
| C160 | The DES likelihood: order and choice of data types, repeated measurements, steps in distance | `DES` | refutations | partial | The statement is false for the code as it is; each part is refuted. What holds is C159. |
| C161 | The Planck likelihood in python: names, bins and spectra | `Plik` | induction over lists; case analysis on kinds of channels through indicator sums | proved | Contents of the clik files are parameters. |
| C162 | Coadded Planck spectra are the best fit | `Plik` | folds as sums, completing the square, positive definiteness of the normal matrix | proved | Real numbers; the solution of linear equations is the inverse matrix times the right side. |
| C163 | The Planck likelihood in python: python 3, wide bins, unused bins, file of names | `Plik` | refutations | partial | The statement is false for the code as it is; each part is refuted. goodRows_first and ttOf_spec give the cases that hold. |
| C164 | The CamSpec likelihood compares each spectrum and multipole used with its own theory | `CamSpec` | invariant of the reading loop; induction over slices | proved | Spectra, covariance and templates are parameters; deltaVector_spec is for up to six spectra, as the code has. |
| C165 | The coadded CamSpec temperature is the best fit | `CamSpec` | nested loops as sums over data, completing the square, positive definiteness of the normal matrix | proved | Real numbers; the solution of linear equations is the inverse matrix times the right side. |
| C166 | The CamSpec likelihood: single multipoles, gaps, spectra left out, foreground tilt, stored inverse; smoothing of short data | `CamSpec`, `Smooth` | refutations | partial | The statement is false for the code as it is; each part is refuted. What holds is C164, C165 and C167. |
| C167 | Smoothing covariances keeps constants, bounds and positivity | `Smooth` | smoothing as a matrix with rows adding up to one; congruence | proved | The window is any sequence of numbers, the position of the result in the full convolution any number. |
| C168 | Foreground parameters are added to chains, names and best fits in the same place | `PlikPost` | a matcher for the regular expressions with python's order of alternatives; induction over lists | proved | The components of the likelihood library are functions of their parameters; numbers are exact, printing with seven digits is not modelled. |
| C169 | Foreground parameters: no chi squared, blank lines, short chains, interruption, tags | `PlikPost` | refutations | partial | The statement is false for the code as it is; each part is refuted. What holds is C168. |
| C170 | The plotter loads the samples of a name once, from the first location that has them | `Analyser` | traces of calls; induction with an invariant on the cache | proved | Loading itself is a given function that may depend on the time of the call. |
| C171 | Curves and contours drawn belong to the samples in use | `Analyser` | invariant relating caches and samples in use; refutations by call sequences | partial | Holds as long as nothing is reloaded and no curve is normalised in between (the _partial theorems); false in general for the code as it is. |
| C172 | Settings and labels of the plotter: own location, reset, labels | `Analyser`, `ParamNames` | induction over the locations; refutations | partial | Holds when the locations searched before have no settings file, for the first reset and without label files; false in general for the code as it is. |
| C173 | Subplots have their own places and are found by their parameters | `PlotLayout` | integer square roots; invariant on the table of subplots; enumeration of cells | proved | The square root is exact; parameters are names. |
| C174 | Axes of several chains show the smallest range that holds all of them | `PlotLayout` | folds as least upper bounds | proved | Numbers are from any linear order; the drawing itself is not modelled. |
| C175 | Layout: no plots, single plots, different priors, chains missing from subplots, roots per subplot | `PlotLayout` | refutations; the partial cases by induction | partial | True for common priors, chains drawn in the first subplot, common roots (the _partial theorems); false in general for the code as it is. |
| C176 | Arguments of lines, contours and legends | `PlotArgs` | lookups through a chain of dictionaries; induction on lists of roots | proved | Values are strings; which strings are colours is a parameter. |
| C177 | Arguments and sizes: no memory of earlier calls, all kinds of lists, offsets, small sizes | `PlotArgs` | refutations with concrete calls; the partial cases by unfolding | partial | True without plot arguments in the settings, for arguments not in lists, as many labels as lines, default scaling (the _partial theorems); false in general for the code as it is. |
| C178 | Old names of settings and plot styles | `PlotStyle` | induction on words for the two substitutions; an invariant of the style manager over all sequences of calls | proved | Attributes of instance and classes are one table; rcParams is a dictionary of strings. |
| C179 | Old names and styles: complete tables, subclasses, redefined and temporary styles | `PlotStyle` | refutations; the table of old names entry by entry | partial | True for all old names but one, and for styles that are not active (the _partial theorems); false in general for the code as it is. |
| C180 | Renaming parameters of a grid of chains | `Rename` | induction on lines and names; renaming as a map on names | proved | Files are strings in a dictionary; the choice of chains of the grid is that of the batch module. |
| C181 | Renaming: complete pairs, different names, readable best fit files, finished grids | `Rename` | refutations with concrete files; the partial cases by induction on the grid | partial | True for short names and grids without best fit files to change (the _partial theorems); false in general for the code as it is. |
| C182 | Samples as objects and dictionaries, joined samples, properties of saved samples | `SampleDict` | invariants of the two passes over the names; lookups in updated dictionaries; sums of scaled weights | proved | Numbers are from an ordered field; values of properties are strings; getParams for names none of which uses value below another. |
| C183 | Samples as objects and dictionaries: clashing names, samples without likelihoods or files, dotted names, old properties | `SampleDict` | refutations; joining by induction on the common names | partial | Joining is true for names without dots (combined_partial); the rest is false in general for the code as it is. |
| C184 | LaTeX of limits and tables | `TexTable` | case analysis on limits; induction on rows; the numbers from the NumFmt theorems | proved | Printing of numbers is that of the NumFmt module; decimals of floats, square roots and the texts with one decimal are given functions. |
| C185 | LaTeX of limits and tables: shifts, titles, rules, labels | `TexTable` | texts without double backslashes are closed under concatenation; refutations with concrete tables | partial | True without plain shifts, for whole percentages, titles without ampersands, and values for all parameters (the _partial theorems); false in general for the code as it is. |
| C186 | Files of CMB likelihoods | `CMBFiles` | loops over pairs of fields as updates of an array at distinct places; induction on rows and bins | proved | Files are rows of numbers as loadtxt gives them; multipoles are not negative; spectra from camb are left out. |
| C187 | Files of CMB likelihoods: order, ranges, writing, plots | `CMBFiles` | refutations with small files; the failures of writing hold for all inputs | partial | Without a prior a missing calibration is calibration one (calibration_default_partial), and C186 has the cases that hold; the rest is false for the code as it is. |
| C188 | Automatic bandwidths minimise the expected error of the density | `Bandwidth` | factorisations of h^5-5u^4h+4u^5 and v^3-3u^2v+2u^3 for the minima; induction on the order for the signs of moments; invariance of bins under affine maps | proved | Real numbers instead of floats; root finders, minimisers and the cosine transform are parameters; the two odd moments are given. |
| C189 | Automatic bandwidths: convergence, units of the fallback, settings | `Bandwidth` | refutations with solvers that do not converge, a parameter without limits, and any setting | partial | True for solvers that converge (solve_optimal) and parameters with limits at both ends (fallback_units_partial); false in general for the code as it is. |
| C190 | Samples handed over by Cobaya are those of its collections | `Cobaya` | inversion of the steps of a successful call; induction on the parameters for the limits; the theorem on merged aliases of C09 for the other names | proved | Collections are tables with distinct column names; names without blanks, stars and question marks; aliases of different parameters are different (the other case is in C191). |
| C191 | Samples handed over by Cobaya: accepted infos, settings, aliases | `Cobaya` | refutations with concrete infos | partial | Where the call succeeds it agrees with the files, and separate aliases stay separate (C190); false in general for the code as it is. |
| C192 | Running getdist over a grid, copying results, settings from best fits | `GridScripts` | lookup in updated dictionaries, the precedence theorem of C02 on the saved text, induction on jobs and on the waiting loop, and induction on lines | proved | Names and values of settings fit on one line and have no references to the environment; names and extensions of copied files have no wildcards. |
| C193 | Running getdist over a grid and copying results: plot data, no processes, relative defaults, normalized names, missing parameters | `GridScripts` | refutations with concrete arguments and files | partial | True with a directory or without use_plot_data, at least one process, own names, and best fits with all three parameters; false in general for the code as it is. |
| C194 | Typed settings and the settings of samples | `Settings` | case analysis on types and values, induction on lists of words, and the round trip of C01 for saved files; invariants of attributes along the sequence of settings | proved | Floats are rational numbers with any printing that can be read back; names and values fit on one line. |
| C195 | Typed settings: truth values in lists, saved lists, arrays, unused settings, the dictionary of the caller | `Settings` | refutations with concrete settings; a theorem for all settings that the unused one is never read | partial | True for lists of T, single values, lists in place of arrays, and without the argument; false in general for the code as it is. |
| C196 | Data sets for forecasts | `Forecast` | composition of the reading theorem of the likelihood (C47) with the table written, lines of the saved settings through the specification of C02, positivity of the exact likelihood for each multipole and sums of non-negative terms; real logarithms for the beam | proved | Numbers printed with %E and read are any function of the number; names and values of settings fit on one line; the input table has distinct multipoles reaching the largest. |
| C197 | Data sets for forecasts: fields in the file, lensing alone, arrays, defaults, messages | `Forecast` | refutations with concrete arguments; for lensing alone a theorem for all settings that it never succeeds | partial | B and lensing are chosen by the columns and lists of lensing noise work (C196); false in general for the code as it is. |
| C198 | Tables of grids: references, captions, headings and files | `MakeTables` | the dictionary of references is the last item for each key (induction on the list of items), equality of normalized tags is equality of sorted names (BatchTags), folds over lines | proved | Loading results, making the LaTeX of one table and printing numbers are parameters (the tables themselves are properties of their own). |
| C199 | Tables of grids: columns, all limits, separate files, averages, ignored data, best fits left out | `MakeTables` | refutations with concrete arguments; case analysis for the headings with tables | partial | Each heading has a table without averages, without the option for columns and when likelihoods have kinds; false in general for the code as it is. |
| C200 | Small scripts: looking at chains, scaling covariances, LaTeX of limits, comparison of models, running jobs, adding grids, reading spectra | `Scripts` | induction on lists of files, parameters and items; an invariant of what has been collected (last value, order of first occurrence); pruning of trees of jobs commutes with removing them one by one; patterns of file names through the specification of C11 | proved | Files, listings, the queue, printing of numbers and the LaTeX of a limit are parameters; roots have no wildcards. |
| C201 | Small scripts: number of the chain, unknown parameters, missing factors, files in the current directory, several parameters, no grid | `Scripts` | refutations with concrete arguments | partial | True with one more argument and for one parameter; false in general for the code as it is. |
| C202 | Triangle plots: linked axes | `PlotLinks` | an invariant of all ranges (Linked) kept by one change, by case analysis on the subplot and the callback; induction on the sequence of changes and on the loops that make the figure | proved | How matplotlib sets a range (the axes, their callbacks, then the axes sharing it without callbacks) is part of the model. |
| C203 | Triangle plots: linked axes with upper_roots | `PlotLinks` | refutations with concrete figures; case analysis for the subplots that pass their range on | partial | True for the subplots named in Carried; false in general for the code as it is. |
| C204 | Grids of plots: parameters, legends, places, sizes and colours | `PlotGrid` | induction on the list of parameters, roots or levels; field arithmetic for sizes; closed form of the repeated mixing with white | proved | Names are those that can be written in a .paramnames file; loading samples is a parameter. |
| C205 | Grids of plots: patterns in lists, objects and renames, labels, options | `PlotGrid` | refutations with concrete arguments | partial | True for renames to one name, without LaTeX, without max_z and without limits; false in general for the code as it is. |
| C206 | Stored statistics describe the samples held at the moment | `StatCache` | invariants of the object (stored means and covariances are right or absent; the rest is right unless the object is marked) kept by every step; induction on the sequence of steps and on the loop over the parameters | proved | The numerical formulas are parameters (they are functions of samples, ranges and settings); names have no aliases. |
| C207 | Limits, likelihood statistics and covariance matrices after a change of the samples | `StatCache` | refutations with concrete sequences of calls | partial | True after updateBaseStatistics or any density; false in general for the code as it is. |
| C208 | The proposal matrix of each job of a grid | `GridSetup` | each step of the search keeps 'result = first existing file so far'; induction on the list of removed names | proved | The file system is a predicate; without_spec is for settings without name mappings. |
| C209 | Names under which a proposal matrix is looked for | `GridSetup` | absolute paths absorb prefixes; splitting inverts joining; refutations with concrete names | partial | True for absolute directories and mappings to other names; false in general for the code as it is. |
| C210 | Opening a grid | `GridSetup` | case analysis on the stored object; membership in the list of options | proved | The stored object is a value or unreadable; the code directory exists for read_twice. |
| C211 | A grid shows the jobs of its settings whatever happened to the stored object | `GridSetup` | refutations with concrete directories and options | partial | True when the grid is made again; false in general for the code as it is. |
| C212 | A job script runs each of its runs once and is known to the index | `SubmitJob` | induction on the runs (values of a run replace those of the one before); case analysis of the effects; text matching for the answer | proved | The queue program is a function of command and script; templates are handled in C62. |
| C213 | Submitted jobs are recorded under the id printed by the queue, with a log for each run | `SubmitJob` | refutations with concrete answers and files | partial | True for Grid Engine's answers; false in general for the code as it is. |
| C214 | Signal to noise combinations | `SigNoise` | matrix algebra; characteristic polynomials are invariant under cyclic permutation and determine the sorted eigenvalues | proved | Real numbers; cholesky and eigh are parameters with numpy's specification as hypothesis. |
| C215 | Scatter plots, bands and covariance contours show what they say | `Scatter` | induction over rows, limits, roots and bands; the thinning theorem C13 with factor one; polar coordinates and a linear change of variables for the mass inside a contour | proved | Exact numbers; random indices are a parameter; matplotlib draws what it is given. |
| C216 | Arguments of scatter plots, bands and export are used as documented | `Scatter` | refutations with concrete names and arguments | partial | True for names without dots and directories; false in general for the code as it is. |
| C217 | Numbers survive being written as tick labels and read from YAML files | `NumText` | languages of regular expressions taken apart alternative by alternative; digit strings and powers of ten | proved | Exact numbers; the regular expression is one of Mathlib's; PyYAML's constructor of floats is modelled from its documentation. |
| C218 | Every decimal number of a YAML file is read as a number | `NumText` | refutations with concrete texts; the part that holds by the same description of the alternative | partial | True without sign and with a signed exponent; false in general for the code as it is. |
| C219 | The Planck plot style gives nested bands, known sizes and tables whose rows fit | `PlanckStyle` | columns counted with multispan; counts of templates in the preamble; inductions over calls and results | proved | Exact numbers; the environment variables and the existence of files are parameters; a cell is what stands between ampersands. |
| C220 | The Planck plot style uses its arguments and labels as given | `PlanckStyle` | refutations with concrete arguments; the labels that are fine by evaluation of the table | partial | True for the other labels and with one column; false in general for the code as it is. |
| C221 | Lists of parameters have the names, kinds, labels and columns asked for | `NameLists` | inductions over lists; what the labels do not touch is an invariant of every step of the constructor | proved | Files are given as the lists of parameters in them. |
| C222 | Parameters are compared by name, labelled by default and tested for convergence wherever they stand | `NameLists` | refutations with concrete lists; with derived parameters at the end by splitting the list | partial | True with derived parameters at the end; false in general for the code as it is. |
| C223 | A DES data file and the text data set made from it give the same likelihood data | `DESFits` | refinement: each row of the text is treated like the row it was made from, by induction over tables and rows, with an invariant for the limits read back; cuts by evaluation of the whole table | proved | Numbers are written without rounding; bins up to six, as in the reader. |
| C224 | DES data can be converted and read in either form | `DESFits` | refutations with concrete files; the rest from C223 | partial | True with Python 2, equal angles and names in which .fits occurs only at the end; false in general for the code as it is. |
| C225 | Mean likelihoods shown with densities are normalised means of the likelihoods | `MeanLikes` | monotonicity and linearity of sums with non-negative weights; normalisation by the attained maximum | proved | A convolution is a matrix of non-negative numbers; exact arithmetic. |
| C226 | A constant likelihood is shown as constant, and mean logarithms can always be shown | `MeanLikes` | refutations with two bins; the flat case without correction from C225 | partial | True in two dimensions without correction of bias; false in general for the code as it is. |
| C227 | Densities interpolate their present values | `DensityObj` | state machine over a heap of arrays; the invariant that splines belong to present values is kept by every safe step | proved | A spline is represented by the values it was made from; the interpolation is a parameter. |
| C228 | Densities can be shared, checked and evaluated in every way offered | `DensityObj` | refutations with concrete histories; the rest from C227 | partial | True without sharing, for arrays of the right dimension and known parameters; false in general for the code as it is. |
| C229 | Two-dimensional plots show what is asked for | `PlotCalls` | folds over roots reduced to the hulls of Props/PlotLayout; case analysis; induction over histories for the remembered names | proved | Drawing itself is not modelled: axes are their limits, labels and number settings; the power of shade levels is any increasing function from 0 to 1. |
| C230 | Two-dimensional plots follow their arguments and settings in every case | `PlotCalls` | refutations with concrete calls | partial | True as in C229; false in general for the code as it is. |
| C231 | A plot in the graphical interface has what is selected | `GuiPlot` | case analysis over selections; induction over settings and actions; read-back of literals | proved |  |
| C232 | Plots in the graphical interface and their scripts agree in every case | `GuiPlot` | refutations with concrete selections and histories; the rest from C231 | partial | refuted as a whole; script_same_partial and script_settings_partial hold for few roots in one-dimensional plots, a non-empty colour, and settings not all set back with an ini file |
| C233 | Changes of settings in the interface change just the settings of an open script | `GuiEdit` | scripts split at the plotter; induction over lines; filters of lines as the specification; fold over changed settings | proved |  |
| C234 | Changes of settings work in every open script | `GuiEdit` | refutations with concrete scripts | partial | refuted as a whole; what holds is C233 |
| C235 | Lists of roots, parameters and directories in the interface hold what was added and selected | `GuiSelect` | induction over lists and loops by index; texts determine names since names have no spaces | proved |  |
| C236 | Selections in the interface are kept and used in every case | `GuiSelect` | refutations with concrete lists | partial | refuted as a whole; the selection and the colour are kept if no rename is the name of a later parameter |
| C237 | Chains saved as text are read back as they were | `SaveChains` | induction over the chains; two lists without repetition and with the same members are permutations; the records of `Props/Chains.lean` as specification | proved |  |
| C238 | All samples can be saved as text and read back in every directory | `SaveChains` | refutations with concrete chains and directories | partial | refuted as a whole; saved_found_partial: every chain saved is among those read |
| C239 | CamSpec foregrounds are possible spectra in proportion to their amplitudes | `Foregrounds` | the power of a combination of maps is a sum of squares; roots of products split into products of roots | proved |  |
| C240 | CamSpec foregrounds follow every parameter given | `Foregrounds` | bounds on e show that the logarithms kept are zero | partial | refuted as a whole; tilt_partial: with logarithms kept as numbers the power law holds |
| C241 | DES theory: each parameter acts on its own bins, in the way of its meaning | `DESNuis` | sums over distances and multipoles are bilinear; Cauchy-Schwarz; the spline is any linear operation | proved |  |
| C242 | DES theory can be had for the data used and parameters they need | `DESNuis` | refutations for all parameters | partial | refuted as a whole; theory_partial: with all parameters, at most four and five bins, and no Weyl potential |
| C243 | Density plots of spectra count each sample in its bin and colour by parameters of samples | `ChainDump` | induction over samples; smoothing is monotone and linear | proved |  |
| C244 | Density plots of spectra work for all spectra | `ChainDump` | refutations for all spectra below zero and with concrete ones | partial | refuted as a whole; what holds for spectra that are not negative is C243 |
| C245 | Points of chains become the CAMB cosmology of the same parameters | `ChainDump` | the result as a function of the values read | proved |  |
| C246 | Points that CAMB cannot represent are refused | `ChainDump` | refutations for all values | partial | refuted as a whole; what holds is C245 |
| C247 | Sizes of a new plotter | `PlotMake` | settings as objects on a list; each new plotter changes one place of it | proved |  |
| C248 | Settings given by the caller are used as they are | `PlotMake` | refutations with concrete settings; what holds by cases | partial | refuted for sizes in settings given, shared settings and rc_sizes without width; fonts of settings given are kept |
| C249 | Text, markers, transparency and the legend of a finished plot | `PlotMake` | lookup in the updated dictionary; cases | proved |  |
| C250 | Labels of colour bars and of contours in 3D plots | `PlotMake` | concrete refutations; number of labels by the length of the list without its head | partial | refuted; given labels and three or more roots are as expected |
| C251 | Filters of importance runs in the supplied grids | `PlanckGrids` | the making of items unfolded once for all settings; each filter shown to be a predicate on the run | proved | filters as predicates on the run; origin of each importance run for all settings |
| C252 | No two runs of a supplied grid write to the same chains | `PlanckGrids` | roots as an injective image of parameters and data tags; distinctness by a hash checked in the kernel | partial | false for the grid of 2018: four runs of the base model are in two groups |
| C253 | Files of all runs of the supplied grids can be made | `PlanckGrids` | the file can be made when ranges and files are given (for all settings), then checked for the three grids | proved | for all runs of the three grids |
| C254 | Settings of the supplied grids mean what they are meant to | `PlanckGrids` | concrete refutations; the rest by the finite list of variants | partial | each part is refuted; what holds of the lensing variants is proved |
| C255 | Results of a run are those of its files | `JobResults` | cases of the files; the state with the error as result; induction over histories of calls | proved | readers of the files are those of the models BestFit, MargeStats and JobStatus |
| C256 | Missing or damaged files of a run cost only what was in them | `JobResults` | refutations for all files with examples | partial | each part is refuted; after loading the convergence is that of the file |
| C257 | Tables of numbers are read completely | `LoadText` | lines rendered from fields and comments; induction over rows | proved | the parsers of pandas and numpy are modelled as documented for the arguments given |
| C258 | Reading a chain does not depend on the library that is installed | `LoadText` | refutations for all tables with examples | partial | each part is refuted; complete rows of at least two columns are read in the same way |
| C259 | Configuration, cache and cached grids are found where they are meant to be | `Config` | cases of environment and file system; prefixes for the mark of the template; induction over files | proved | the file system and the hash are parameters |
| C260 | Wrong configuration is reported and grids are not mixed up | `Config` | refutations for all environments; finiteness of prefixes of hashes | partial | each part is refuted; without a cache directory grids are not mixed up |
| C261 | Pictures of tables are made without traces | `TablePng` | files after each step by cases of the programs | proved | LaTeX and dvipng are parameters; the temporary name is new |
| C262 | Pictures of tables are where they are asked for, or there is an error | `TablePng` | refutations for all names with examples | partial | each part is refuted; without a name and with bytesIO the result is the picture or an error |
| C263 | Lists of a grid and jobs of single files are complete | `ListGrid` | grouping by keys is a permutation; sorting of strings | proved | the choice of runs is that of C35 |
| C264 | All options of the list of a grid have an effect, and files keep their names | `ListGrid` | refutations for all grids and names with examples | partial | each part is refuted; names with one extension are kept apart |
| C265 | Highlighting of strings over several lines ends and follows single quotes | `Highlight` | first occurrence of a text; the start of each round is behind the one before | proved | one kind of quote; other rules of colours are left out |
| C266 | Highlighting follows all strings of a line | `Highlight` | refutations for all lines with examples | partial | each part is refuted; lines with at most one triple quote are right |
| C267 | The limits of a chain are those of its files, calls and settings | `SampleRanges` | induction over the ranges given and over the parameters; ranges of other names are invariant | proved | names of parameters are different; settings are a function of the key |
| C268 | Setting ranges is done at once, completely or not at all | `SampleRanges` | refutations by concrete chains; composition of the two steps for the part that holds | partial | each part is refuted; ranges accepted take effect once the statistics are computed |
| C269 | The packaging script reads version, description and launcher | `Packaging` | induction over the text with the places where lines start; induction over the lines from the last | proved | texts as read; what setuptools does is left out |
| C270 | The packaging script reads every version and whole sections | `Packaging` | refutations by concrete texts; the first place matches for the part that holds | partial | each part is refuted; versions without quotes in the first line are found |
| C271 | Odd moments of the data follow exchanges and mirror images of the parameters | `OddMoments` | the transform of real data and of mirror images; a pairing of frequencies with their opposites; induction over the recursion | proved | over the reals; the transform is written as its sum; minimizers that treat mirror images alike |
| C272 | Kernels of independent parameters have no odd moments | `OddMoments` | refutations for two bins; the pairing of frequencies for the part that holds | partial | refuted for two bins; true for data with nothing at the highest frequency, and for odd numbers of bins (C271) |
| C273 | The table of likelihood statistics lists the extremes of every parameter | `LikeTable` | splitting at blanks token by token; lengths of the pieces for the columns; the reading of the summary of C124 | proved | numbers are rational; names are words and labels trimmed |
| C274 | Likelihood statistics can be written, read and written again | `LikeTable` | refutations, two for all statistics without parameters; the parts that hold follow from C273 | partial | each part is refuted; the summary comes back, and columns are kept apart for exponents of two digits |
| C275 | Arrays of plots keep roots, parameters and labels together | `PlotArrays` | indices of the cells; the fold over subplots as a concatenation; orders as lists of indices, reverse as a special case | proved | matplotlib's pairing of lines and labels up to the shorter list is assumed |
| C276 | The legend of an array of 3D plots has one line for each contour | `PlotArrays` | refutations by small figures; the number of lines for all figures; the parts that hold follow from C275 | partial | refuted: lines repeat for every subplot, reversing fails with an index error, gaps of the first subplot stay, no triplets divide by zero |


## Code modelled

The lines are cited at each definition.

| python file | Lean modules |
|----|----|
| `CMB_CamSpec.py` | CamSpec, Foregrounds |
| `CMB_plik.py` | Plik |
| `CMBlikes.py` | CMBFiles, CMBlikes, CMBlikesHL, Forecast |
| `DES.py` | DES, DESFits, DESNuis |
| `SN.py` | SN |
| `SyntaxHighlight.py` | Highlight |
| `__init__.py` | Config |
| `_base.py` | PlotStyle |
| `addGridBatch.py` | Scripts |
| `batchjob.py` | Batch, Config, GridFiles, GridSetup, JobResults, JobStatus, ListGrid |
| `batchjob_args.py` | Batch, GridSetup, ListGrid, MakeTables |
| `chainDumpPlot.py` | ChainDump, Scripts |
| `chainPeek.py` | Scripts |
| `chain_grid.py` | Batch, ChainFiles, ChainGrid |
| `chains.py` | AutoCorr, BestFit, ChainFiles, Chains, Cobaya, CobayaMemory, Combine, Confidence, GelmanRubin, LoadCache, LoadText, NameLists, PlotGrid, ReadChains, SampleDict, Samples, SaveChains, Settings, SigNoise, Singles, StatCache, Thin |
| `checkConverge.py` | JobStatus |
| `cleanup.py` | Config, GridFiles |
| `cobaya_interface.py` | Cobaya, CobayaMemory |
| `command_line.py` | ChainFiles, CommandLine, Config, PCA, ReadChains |
| `convolve.py` | Convolve |
| `copyGridFiles.py` | GridFiles |
| `cosmomc_to_camb.py` | ChainDump |
| `covcomb.py` | CovMat |
| `covmat.py` | CovMat |
| `covscale.py` | Scripts |
| `deleteJobs.py` | JobQueue |
| `densities.py` | Analyser, Density, DensityObj, Kde2D |
| `extractBestFitCAMB.py` | GridScripts |
| `extractBestFitParams.py` | GridScripts |
| `extractDistFiles.py` | GridScripts |
| `gaussian_mixtures.py` | GaussMix |
| `gridconfig.py` | Batch, GridSetup, PlanckGrids |
| `inifile.py` | IniFile, Settings |
| `jobqueue.py` | JobQueue, SubmitJob |
| `kde_bandwidth.py` | Bandwidth, Kde1D, OddMoments |
| `listGrid.py` | ListGrid |
| `mainwindow.py` | GuiEdit, GuiPlot, GuiSelect |
| `makeLatex.py` | Scripts |
| `makeParamCompare.py` | Scripts |
| `makePerfectForecastDataset.py` | Forecast |
| `makeTables.py` | MakeTables |
| `matplotlib_ext.py` | NumText, Ticks |
| `mcsamples.py` | Analyser, Bandwidth, BestFit, Cobaya, CobayaMemory, Combine, CommandLine, Converge, DensityObj, GelmanRubin, GuiSelect, JobStatus, Kde1D, Kde2D, LoadCache, MargeStats, MeanLikes, PCA, Raftery, ReadChains, SampleDict, SampleRanges, SaveChains, Settings, Singles, StatCache, TexTable |
| `paramnames.py` | BestFit, Cobaya, CobayaMemory, GaussMix, JobResults, LikeTable, MargeStats, MergeRenames, NameLists, ParamNames, PlotGrid |
| `parampriors.py` | Bounds, Cobaya, SampleRanges |
| `planck.py` | PlotMake |
| `planckStyle.py` | PlanckStyle |
| `plikParams.py` | PlikPost |
| `plik_postprocess.py` | PlikPost |
| `plots.py` | Analyser, GuiPlot, PlanckStyle, PlotArgs, PlotArrays, PlotCalls, PlotGrid, PlotLayout, PlotLinks, PlotMake, PlotStyle, Scatter |
| `posixpath.py` | Path |
| `renameParam.py` | Rename |
| `runGridGetdist.py` | GridScripts |
| `runMPI.py` | ListGrid |
| `runbatch.py` | JobQueue, JobStatus |
| `runningJobs.py` | Scripts |
| `settings_planck_nominal.py` | PlanckGrids |
| `settings_sample_camspec.py` | PlanckGrids |
| `setup.py` | Packaging |
| `smoothing.py` | Smooth |
| `types.py` | BestFit, JobResults, JobStatus, LikeTable, MakeTables, MargeStats, NumFmt, PlanckStyle, SampleDict, Table, TablePng, TexTable |
| `yaml_tools.py` | NumText |

Not modelled: drawing (in `plots.py` everything but the sample analyser, the layout of subplots and ranges, linked axes, parameters, labels and colours of grids, scatter plots, bands, and the arguments and styles cited; `planckStyle.py` other than bands, sizes, labels, likelihood files and tables, `gui/` other than the choice of plots, scripts and their editing, lists of roots and parameters, `makePlots.py`), the Planck data modules in `planck/` other than those cited,
the Fortran sources,
`gaussian_mixtures.py` (other than as cited: random test mixtures), `yaml_tools.py` (other than which texts are floats), command line parsing by `argparse`, interactive output and progress messages,
`command_line.py`: messages, `finish_run_command`, running of scripts.

## Where the code does not have the property

Each is a theorem; the witness is in the proof or in the example beside it.

* `Analyser.stale_density_fails`: Loading samples again (`samples_for_root(root, cache=False)`, e.g. with other settings) replaces the samples but keeps the cached densities of the old ones (plots.py:526-528, 580-592): plots after it still show the old densities.
* `Analyser.normalized_stays_fails`: `add_1d` normalises the cached density itself (plots.py:976, densities.py:87-88): after one normalised plot, a later plot of the same parameter that asks for unit maximum shows the normalised curve, at the wrong height.
* `Analyser.add_root_same_name_fails`: `add_root` caches under the base name (plots.py:553): adding chains of the same name from a second directory gives the samples of the first.
* `Analyser.settings_ignored_fails`: Settings given for a root that is already loaded are ignored without a message (plots.py:491-492).
* `Analyser.norm_setting_fails`: The default `normalized=False` of `plot_1d` is passed on as if it had been asked for (plots.py:1531, 1585, 963): the setting `norm_1d_density` has no effect on plots.
* `AnalyserSettings.other_directory_fails`: The `getdist.ini` of every directory searched is applied, also when the chain is not found there (plots.py:514-519): chains of a later directory are analysed with the settings of an earlier one.
* `AnalyserSettings.reset_keeps_fails`: `reset` updates the old settings instead of replacing them (plots.py:460-463): a key that is neither in the default file nor given again (such as `no_plots` or `limits[x]`) keeps its old value.
* `AnalyserSettings.caller_ini_fails`: The first `IniFile` given is used itself as the analyser's settings and is then updated in place by a later reset (plots.py:453, 460-463): the caller's object changes.
* `AnalyserSettings.labels_stay_fails`: `params_for_root` writes the labels of the file into the samples' own parameter list (plots.py:644-645): after one call of `param_latex_label` with `label_params` the samples keep those labels.
* `AutoCorr.autocorr_default_fails`: **C84** Fails by default: the number of entries is the number of parameters, not of rows.
* `AutoCorr.autocorr_default_error_fails`: **C84** Fails by default with more parameters than rows: an error.
* `AutoCorr.length_never_fails`: **C84** Fails when the correlations stay above that: the length is the correlation at zero alone, as if the samples were independent.
* `AutoCorr.kde_few_fails`: **C84** Fails for fewer than ten rows: an index error, for any samples.
* `AutoCorr.kde_third_fails`: **C84** Fails to be the calculation it stands for: even with steps of one, the correlation three rows apart is counted half, for all samples with correlations above the threshold up to there.
* `Bandwidth.unconverged_fails`: the flag of `fsolve` is not looked at (line 121 takes the first result, warnings are switched off at line 119), so its last guess is used as a bandwidth also when it did not converge; even one that is not positive
* `Bandwidth.fallback_units_fails`: the rule is divided by the range without borders (line 1167) and multiplied by the range with borders, so it is too wide at ends without limits
* `Bandwidth.setting_fails`: the argument is `False` when it is left out, not `None` (mcsamples.py:1196), and the caller leaves it out: the setting has no effect
* `BatchArgs.filters_ignored_fails`: a data tag switches off the filter on skipped data, a parameter tag that on skipped parameters
* `BatchArgs.job_over_data_fails`: the job's own options do not win over the options of a data set, and a data set can even move the chains elsewhere
* `BatchArgs.add_override_fails`: adding settings to a data set so as to override the existing ones puts the new default files first (where they win) but also the new options first, where the old ones win
* `BatchItems.dedupe_loses_fails`: with nested importance runs (filters) a combination can be lost: the run that carries it is removed because another run has its normalised name, although that other run does not have the nested run
* `BatchItems.mkGroup_fails`: giving the data sets to the constructor of a group leaves the group without any attribute: the grid cannot be made
* `BatchTags.normedTag_inj_fails`: names containing the separator are confused: two different combinations with the same tag
* `BatchTags.name_collision_fails`: without that condition, two runs with different parameters and data have the same name, the same normalised name and therefore the same ini file
* `BatchTags.normalizeDataTag_fails`: names with a separator, or beginning with `post`, are not normalised to the tag the run was given
* `BatchTags.matches_order_fails`: a run is not matched by the tag of the same data in another order (unless that order is the sorted one)
* `BatchTags.impInfo_base_fails`: the importance runs of a run of another base model lose the base name in their normalised name
* `BatchTags.resolveName_underscore_fails`: a run whose data name contains the separator cannot be found under its own tag
* `BatchTags.resolveRoot_order_fails`: the query of `resolveRoot` is not normalised: a run is not found under its name with the data in another order
* `BestFit.no_label_fails`: **C123** Fails without label: a parameter line of three words cannot be read, and with it the file.
* `BestFit.no_kind_fails`: **C123** Fails for contributions without a kind: they are stored under a list instead of a name, and are never found by name.
* `BestFit.fixed_derived_fails`: **C123** Fails for fixed parameters: they are flagged as derived, so that the dictionary without derived parameters does not have them.
* `BestFit.summary_loses_fails`: **C125** Fails for two values: a mean of 1/like that is zero is not written, and the complexity is never written.
* `BestFit.nd_empty_fails`: **C125** Fails for a dominant row: if the most likely row holds the fraction of the first contour there are no limits (ValueError).
* `BestFit.nd_region_fails`: **C125** Fails to hold the fraction: the region always holds less than it was asked for.
* `Bounds.unset_fails`: **C27**: a limit cannot be removed: setting an unbounded range afterwards leaves the old limit.
* `Bounds.empty_range_fails`: **C27**: fixing a parameter and then giving it only an upper limit below leaves a range that contains nothing.
* `Bounds.narrow_range_fails`: **C26**: a narrow range becomes a fixed value.
* `Bounds.blank_name_fails`: **C26**: a parameter whose name is not a single word is dropped, or read as another.
* `CMBFiles.row_order_fails`: the values are placed by the number of their row (lines 105-106): with rows out of order they are at other multipoles, without an error
* `CMBFiles.add_to_empty_fails`: `add_from_file` of an array without spectra cuts every spectrum after its first value (line 107 with `lmax` 0 of line 56)
* `CMBFiles.reload_fails`: a second `loadFromFile` keeps the spectra that its file does not have, with the length of the first file (lines 91-93)
* `CMBFiles.short_theory_fails`: when the theory ends at the first multipole of the likelihood, this one value is used for all multipoles (line 585)
* `CMBFiles.rescale_few_fails`: with fewer than four fields a factor is an error (lines 73-75)
* `CMBFiles.rescale_more_fails`: with a fifth field its spectra are not multiplied
* `CMBFiles.warning_file_fails`: with `use_min` above 1 the warning shows another file (line 299: `b + 1` without `bin_min`)
* `CMBFiles.window_width_fails`: a file with one column of weights is used for all spectra (line 296: numpy repeats a single value)
* `CMBFiles.window_twice_fails`: a multipole given twice has the weights of its last row (line 296 sets, it does not add)
* `CMBFiles.write_windows_fails`: windows that were read can never be written: `lmin` and `lmax` are numbers, and line 134 takes their elements
* `CMBFiles.write_directory_fails`: the directory that is made is not the one the files are opened in (line 132)
* `CMBFiles.write_data_fails`: `write_likelihood_data` never writes a line of numbers: `%I5` is not a format (line 640)
* `CMBFiles.calibration_default_fails`: without the parameter the spectra are not scaled (line 593), and with a prior the likelihood is a KeyError (line 715)
* `CMBFiles.draws_theory_fails`: the theory is never drawn: in the call of line 727 the spectra are the argument `column`
* `CMBFiles.draws_column_fails`: the points are those of `PP` whatever column is asked for (line 560)
* `CMBFiles.draws_several_fails`: the errors are those of all spectra of the covariance, so their number is that of the points just for one spectrum (lines 553, 558)
* `CMBlikes.separator_in_name_fails`: a separator inside a map name: the spectrum cannot be named
* `CMBlikes.duplicate_columns_fails`: the test for two columns with the same spectrum never fails: with both `TE` and `ET` the second name is ignored
* `CMBlikes.missing_line_fails`: a file with a missing line is accepted, and the band powers of this bin are zero
* `CMBlikes.one_bin_fails`: a file with one bin cannot be read
* `CMBlikes.required_maps_fails`: with `maps_use`, every required map becomes a map used in the likelihood: `require_map` is a view of `use_map`
* `CMBlikesChi.unrequired_map_fails`: a window for a map that is not required is applied, silently, to the last required map
* `CMBlikesChi.noise_twice_fails`: data that include noise: the noise is taken off the data and also added to the theory, so it is counted twice
* `CMBlikesChi.missing_window_fails`: too few columns of the windows: the likelihood cannot be calculated
* `CMBlikesChi.aberrate_two_fails`: with two multipoles the "derivative" is the spectrum itself
* `CamSpecCoadd.single_fails`: A single multipole has no dimension and cannot be concatenated. (CMB_CamSpec.py:24-25)
* `CamSpecCoadd.gaps_fails`: The test for gaps subtracts arrays of different lengths and fails. (CMB_CamSpec.py:264-265)
* `CamSpecCoadd.allFour_fails`: All four spectra must be used: the range of a spectrum that is not used is None. (CMB_CamSpec.py:248)
* `CamSpecCoadd.setup_fails`: The constructor always ends with an AttributeError: the name of the data set is never stored. (CMB_CamSpec.py:134)
* `CamSpecCoadd.lnrat_fails`: The array for the logarithm is made of integers, so the logarithm is cut off: between 1104 and 8154 it is zero, and the tilt of the infrared background has no effect there. (CMB_CamSpec.py:129-131)
* `CamSpecCoadd.seventh_fails`: A seventh spectrum is compared with zero. (CMB_CamSpec.py:220)
* `CamSpecCoadd.byName_fails`: The place in the file decides, not the name. (CMB_CamSpec.py:222-228)
* `CamSpecCoadd.cache_fails`: The inverse is stored in single precision: the second time it is another. (CMB_CamSpec.py:136-140)
* `CamSpecCoadd.weights_fails`: The weights are computed with an object of the test program, and not available to others. (CMB_CamSpec.py:296-297)
* `CamSpecCoadd.diffGaps_fails`: With gaps in the multipoles the positions are those of other multipoles. (CMB_CamSpec.py:328-332)
* `CamSpecCoadd.pivot_fails`: The assertion adds two multipoles that were added before: a template short by one or two fails with an IndexError. (CMB_CamSpec.py:39)
* `CamSpecCoadd.polarised_fails`: With polarisation used as well, the block of the inverse is that for known polarisation, and the covariance returned is too small. (CMB_CamSpec.py:260, 280)
* `ChainDump.negative_fails`: **C244 fails**: the least value of spectra that go below zero is always left of the first bin (a negative number divided by 1.04 is larger), so it is counted from the other end (chainDumpPlot.py:45-48, 54)
* `ChainDump.wraps_fails`: **C244 fails**: of two values -100 and 100 in 300 bins the first is counted in bin 294, that of values near 100.6 (chainDumpPlot.py:45-57)
* `ChainDump.all_negative_fails`: **C244 fails**: spectra that are all negative end in an IndexError: the largest value is above the last bin (chainDumpPlot.py:47-57)
* `ChainDump.python3_fails`: **C244 fails**: with Python 3 nothing can be plotted: the number of multipoles is a float (chainDumpPlot.py:49-50)
* `ChainDump.gap_fails`: **C244 fails**: a bin without samples between others is shown in the colour of the value zero if the next multipole has samples there: opacity is smoothed over multipoles but the colour is not (chainDumpPlot.py:62-77)
* `ChainDump.ignored_fails`: **C246 fails**: tensor index and running, the fiducial lensing amplitude and dark matter annihilation are left out without a message, whatever their values (cosmomc_to_camb.py:18-27)
* `ChainDump.sampled_fails`: **C246 fails**: a point of sampled parameters (with `logA` and `theta`) cannot be converted: `A` and `H0` are derived (cosmomc_to_camb.py:20, 25)
* `ChainFiles.plain_file_two_roots_fails`: **C23**: but the file of an unnumbered chain counts as a chain of a shorter root as well.
* `ChainFiles.bare_root_fails`: **C23**: a root without directory never works, because the empty path cannot be listed.
* `ChainFiles.find_subdirectory_fails`: **C23**: a root with leading directories (allowed by the documentation) stops the search with an error as soon as one place lacks that directory, although the chain exists further on.
* `ChainFiles.save_txt_root_fails`: **C59**: saving under a name that already ends in `.txt` (the code has a branch for it) writes a different file, with two dots, which is not found under the root.
* `ChainFiles.root_files_relative_fails`: `get_chain_root_files` with a relative directory looks for the chains in `dir/dir` and raises an error.
* `ChainFiles.root_files_twice_fails`: with both a `.paramnames` file and an `updated.yaml` file the same root is listed twice
* `ChainGrid.three_chains_fails`: **C66 fails** for three chains of the same name: the folders are compared at one level only, so two chains get the same name and one of them cannot be looked up any more
* `ChainGrid.same_chain_twice_fails`: a chain found twice in the same folder (through `.paramnames` and through `updated.yaml`) makes the whole grid unreadable
* `ChainNames.burn_combined_fails`: **C21 fails for combined chains**: a quarter of the combined rows is dropped, but the offsets are not updated, so a row of the second chain moves into the first.
* `ChainNames.thin_boundaries_fails`: **C57 fails for `thin`**: the offsets are those of the unthinned chains.
* `ChainNames.filter_indices_fails`: **C20 fails for a list of indices**: the non-zero entries of slices of the index list are counted, so the kept rows of the first chain are lost or moved.
* `ChainNames.split_without_loglikes_fails`: **C19 fails without likelihoods**: combined chains without likelihoods cannot be split.
* `ChainNames.split_drops_rows_fails`: **C19 fails with small weights**: zero weight rows kept by the combined chains are lost when they are split.
* `ChainNames.split_empty_chain_fails`: **C19 fails with an empty chain**: e.g. after a filter that removes a whole chain, splitting raises.
* `ChainNames.fixed_first_chain_fails`: **C22 fails for separate chains**: the second column varies in the second chain but is removed because it is fixed in the first.
* `ChainNames.load_boundaries_fails`: **C57 fails for loading**: loading a single array into an object that held chains keeps the old boundaries.
* `CobayaLoad.skip_twice_fails`: Chains from which Cobaya has removed burn-in (`post: {skip: 0.3}`) have it removed again: `get_burn_removed` looks for `post` in the dictionary of parameters.
* `CobayaLoad.nested_burn_fails`: Burn-in is removed from nested samples with the default settings, though asking for it is refused: the check looks only at the argument.
* `CobayaLoad.nested_file_fails`: The same for the chains of Cobaya's nested sampler.
* `CobayaLoad.memory_burn_fails`: Samples given as arrays, without any setting, lose the first 30 per cent of the rows: the default settings are those for raw chains.
* `CobayaLoad.minimize_fails`: Files of Cobaya's minimizer cannot be loaded: its type is translated to one that is not known.
* `CobayaLoad.evaluate_fails`: Files of other samplers of Cobaya (`evaluate`) are a `KeyError`.
* `CobayaLoad.range_twice_fails`: Reading the range of a parameter removes the distribution from the dictionary given: the second time a normal prior is taken for a uniform one, with limits.
* `CobayaLoad.standard_fails`: The standard normal prior, given by its name only, is an `UnboundLocalError`.
* `CobayaLoad.unsaved_fails`: A parameter that is not saved and has no value is a `TypeError`.
* `CobayaLoad.text_fails`: A derived parameter given by a text is an `AttributeError`.
* `CobayaLoad.add_fixed_fails`: A fixed parameter cannot be changed in `post`.
* `CobayaLoad.remove_text_fails`: One parameter to remove, given as a text as is possible for likelihoods and priors, is not removed; parameters named by one of its letters are.
* `CobayaLoad.both_kinds_fails`: A parameter with a prior that is also marked derived is in the list of parameters two times.
* `CobayaMemory.null_fails`: a derived parameter without information is accepted for its label (line 100) and not for its other names (line 103)
* `CobayaMemory.function_fails`: a function that is not saved has no range when files are read (parampriors.py:38-40), here its range is asked for and is an exception (lines 101-102, 183)
* `CobayaMemory.settings_rows_fails`: the argument is always handed on, also its default, and overwrites the entry of the settings (mcsamples.py:214-217)
* `CobayaMemory.common_alias_fails`: parameters with a common other name are taken for the same: one of them gets the name of the other as its own (chains.py:1099-1100, paramnames.py:326-331)
* `Combine.value_name_fails`: a parameter called `a.value` besides `a` and `a.b` is lost
* `Combine.dotted_fails`: samples with a common parameter whose name has a dot cannot be combined
* `CommandLine.ini_substring_fails`: A chain root that contains `.ini` anywhere is taken for a settings file: the chains `chains/x.initial_1.txt` cannot be analysed by giving their root, the message is that the parameter file does not exist.
* `CommandLine.no_ini_fails`: Called with a chain root and no settings file (`args.ini_file = None`), which the first check lets pass, the script stops with `TypeError`.
* `CommandLine.wildcard_plots_fails`: A root with wildcards given alone is analysed with plots on by default, though every root given by itself has them off.
* `CommandLine.wildcard_cobaya_fails`: With wildcards the chains written by Cobaya (`chains/a.updated.yaml`, `chains/a.1.txt`) get the root `chains/a.` with the dot, for which no chain file is found.
* `CommandLine.wildcard_loop_fails`: A file whose name has a wildcard character makes the script call itself without end.
* `CommandLine.twice_fails`: A parameter named twice, once by a pattern, is listed twice: the triangle plot has it two times.
* `CommandLine.missing_silent_fails`: A name that is no parameter is left out of a triangle plot without a message: the plot is of the others.
* `CommandLinePlots.joined_fails`: The pair `a_`, `b` also selects the pair `a`, `_b`: pairs nobody asked for are plotted.
* `CommandLinePlots.order_fails`: Plots are not in the order of the settings `plot1`, `plot2`, ....
* `CommandLinePlots.alias_fails`: A pair given with another name a parameter is known by passes the check of the settings, but is not plotted.
* `CommandLinePlots.quote_fails`: A quote in a parameter name makes a script that is not python.
* `Config.missing_config_fails`: **C260 fails**: a configuration file that is named but is not there is not reported: the configuration is empty (getdist/__init__.py:33-36)
* `Config.empty_xdg_fails`: **C260 fails**: with an empty `XDG_CACHE_HOME` the cache is in the working directory (getdist/__init__.py:46)
* `Config.file_as_dir_fails`: **C260 fails**: a file in the place of the cache is given back as the directory (getdist/__init__.py:56)
* `Config.other_grid_fails`: **C260 fails**: cache files are named by ten digits of a hash and the stored grid is not compared with the directory that is asked for, so there are two directories of which one has the grid of the other (batchjob.py:19-20, 49-53)
* `Config.huge_file_fails`: **C260 fails**: with a file of a terabyte the clean-up stops with an error; it and the files after it are not removed (cleanup.py:20-26, 45)
* `Converge.constant_fails`: **C138** If in every chain a parameter keeps its value (the same or not) then the whole test raises an exception: a chain that never moves, or a parameter that is constant.
* `Converge.stuck_chains_fails`: **C138** Chains that have not found each other at all seem to be nearly free of correlations: two chains of ten rows which stay near `1000` and `-1000` are worth twenty million samples.
* `ConvergeMeans.steps_twice_fails`: **C141** The rows are counted as if they had not been thinned yet: at the distance of twenty, two chains of three hundred and eighty steps, nineteen rows after thinning, get none of the correlations, though nine are allowed for by the length of all chains together.
* `Convolve.smooth_fails`: **C40 fails**: requests between 226492417 and 234881024 get a multiple of seven
* `Convolve.convolve1D_length_fails`: **C41 fails** for a kernel longer than the data: up to 1000 data points the result of mode `same` has the length of the kernel, above it has the length of the data
* `Convolve.cache_id_fails`: **C41 fails** when the id of a freed array is used again: the second call uses the transform of the first kernel
* `Convolve.gaussianTrunc_narrow_fails`: **C41 fails** for widths below a quarter pixel (with the default range): the result is empty instead of the data
* `Convolve.gaussian_shared_cache_fails`: **C41 fails** when `convolveGaussian` and `convolveGaussianTrunc` share a cache: they use the same key for different kernels
* `Convolve.gaussianDCT_no_cache_fails`: **C41 fails** for the cosine transform with the default argument `cache=None`: it always raises `TypeError`
* `CovMat.merged_correlation_fails`: **C24**: a merged matrix has size 0: its correlation matrix is the covariance matrix, although the same matrix written to a file and read again has the right one.
* `CovMat.covcomb_zero_hides_fails`: **C24**: merging three files, the covariance of `b` and `c` is given only by the third, but the zero put in when merging the first two hides it.
* `CovMat.single_parameter_fails`: **C25**: the matrix of a single parameter is read back as a number without dimensions, which can be neither rescaled nor saved nor turned into a correlation matrix.
* `DESFits.python3_fails`: **C224 fails**: `convert_txt` makes an array of `zip(...)` (DES.py:649), which with Python 3 is an array of one object without columns, so that `dat[:, 2]` is an IndexError and no file can be converted
* `DESFits.forms_fails`: **C224 fails**: the reader of original files cuts at the angle of each row (DES.py:211-212), the text keeps only those of the first table (635, 648), and angles that differ by less than 0.2 percent pass as equal; a measurement with a cut in between is used in one form and not in the other
* `DESFits.format_fails`: **C224 fails**: `.fits` is looked for anywhere in the path (DES.py:104): a data set in a directory named after the original file is read as one
* `DESFits.alignment_fails`: **C224 fails**: the reader of data sets stores it under a misspelt name (DES.py:121)
* `DESNuis.shear_only_fails`: **C242 fails**: data of shear only still need the bias of galaxies: without `DES_b1` there is a KeyError whatever data types are used (DES.py:463-473)
* `DESNuis.more_bins_fails`: **C242 fails**: data with a fifth bin of sources (or a sixth of galaxies) end in an IndexError for all parameters (DES.py:463-473, 499, 515)
* `DESNuis.weyl_galaxies_fails`: **C242 fails**: with the Weyl potential the correlations of shear cannot be had if galaxy-shear data are among those used (DES.py:524-525)
* `DESTheory.typeOrder_fails`: The theory is returned in the fixed order `xip xim gammat wtheta`, but looked up by the position in `data_types`: with `data_types = xim xip` the data of one are compared with the theory of the other. (DES.py:123, 148, 595, 601)
* `DESTheory.onlyGalaxies_fails`: With `wtheta` as the only type the theory is missing: the first array returned is that of `xip`, which is empty. (DES.py:595, 601)
* `DESTheory.ximAlone_fails`: Data of `xim` without `xip` cannot be used: the pairs of bins of `xip` are looked up. (DES.py:581)
* `DESTheory.ximPairs_fails`: A pair of bins of `xim` that `xip` does not have has no theory. (DES.py:581-585)
* `DESTheory.lastStep_fails`: The last step in distance is counted whole, although half of it belongs to the point before: the steps exceed the largest distance by half of the last. (DES.py:486)
* `DESTheory.duplicate_fails`: A measurement given twice is entered twice with the second value. (DES.py:157-162)
* `DensityInt.integrateN_fails`: **C39 fails** in more dimensions than the first axis has points: `len(P)` is taken for the number of dimensions
* `DensityInt.normalizeN_fails`: **C39 fails** for densities of any dimension: after dividing by the computed norm the trapezoid integral is the cell volume, not one
* `DensityLevels.half_edge_fails`: **C38 fails** with half edges (the default): the level is interpolated between the halved values. Here the density is highest at the edge; the level for 20% of the mass lies below that for 30%, and encloses 62% of the mass, of which a whole bin too much
* `DensityLevels.missing_norm_fails`: **C38 fails** for the option of missing mass: mass 2 of a total of 2 + 6 is outside the grid, half of the total is 4, but the region of the level holds 6, and still 5 without the bins at the level
* `DensityLevels.limits_not_monotone_fails`: **C67 fails**: the level is interpolated towards the wrong neighbour, so a larger probability can give a narrower interval
* `DensityLevels.limits_index_fails`: **C67 fails** for small probabilities and for flat maxima: the search runs over the end of the array
* `DensityLevels.list_argument_fails`: **C67 fails** for a list of probabilities: only the first limit is returned
* `DensityObj.shared_fails`: **C228 fails**: `normalize(in_place=True)` forgets the spline of its own object only (densities.py:85-89): another density on the same array, called before, keeps giving the old values, although its `P` has changed
* `DensityObj.sizes_fails`: **C228 fails**: sizes are compared with `zip` (densities.py:99): an array of one dimension passes for a density of two if it has the length of its y axis
* `DensityObj.prob2_fails`: **C228 fails**: `Density2D.Prob` computes the density but does not return it (densities.py:290), so that the result is always `None`
* `DensityObj.unknown_fails`: **C228 fails**: `get2DDensity` with `normalized` calls a method of the `None` that it gets for an unknown parameter (mcsamples.py:1616-1618): AttributeError
* `Forecast.fields_file_fails`: With no fields asked for E is always used, as `'EE' or …` (makePerfectForecastDataset.py:62-63) is true whatever the columns are. For a file of temperature alone the spectrum of E is then zero.
* `Forecast.lensing_alone_fails`: For lensing alone makePerfectForecastDataset.py:88 still multiplies by `NoiseVar`, which is `None`: the program stops for all settings.
* `Forecast.lens_array_fails`: The noise of lensing is documented as an array, but is used as a truth value (makePerfectForecastDataset.py:65, 80, 91), which numpy refuses for arrays of more than one number: `ValueError`.
* `Forecast.defaults_fails`: `fwhm_arcmin=None` and `lmax=None` are the defaults, but makePerfectForecastDataset.py:76 divides the first and line 87 adds to the second: `TypeError`.
* `Forecast.noise_message_fails`: The message of makePerfectForecastDataset.py:53-54 cannot be reached: `use_CMB` is then false. With only noise of polarisation the error is that a variable was not set (`noise_cols`, line 85).
* `Forecast.no_noise_fails`: Noise of zero for the maps is taken for none given (makePerfectForecastDataset.py:39), though a variance of zero is accepted.
* `Forecast.fields_noise_fails`: When lensing is among the fields asked for and its noise is not given, no message is made and the noise is zero (makePerfectForecastDataset.py:60, 80; a column that is missing reads as zero, CMBlikes.py:227-240).
* `Foregrounds.tilt_fails`: **C240 fails**: the index of the infrared background and its running do nothing at all at multipoles from 1104 to 8154, since the logarithms are kept as whole numbers (CMB_CamSpec.py:129-131, 171)
* `Foregrounds.power_law_fails`: **C240 fails**: at multipole 1500 the power law with index 2 is a quarter of the template, but the template is used unchanged (CMB_CamSpec.py:129-131, 171)
* `Foregrounds.negative_acib_fails`: **C240 fails**: an amplitude `acib143` given below zero is taken as not given: any two such values give the same foregrounds (CMB_CamSpec.py:159, 172-174)
* `Foregrounds.negative_sz_fails`: **C240 fails**: a thermal amplitude a little below zero makes the whole spectrum at 143 GHz not a number, also when no correlation is assumed (CMB_CamSpec.py:187-188)
* `GaussMixDefects.totalCov_fails`: The total covariance of a single normal distribution is not its covariance: the loop over the components also goes through the elements of the total mean, and subtracts a number from the vector.
* `GaussMixDefects.totalCov_short_fails`: Components after the number of parameters are not used for the total covariance.
* `GaussMixDefects.getLower_fails`: The lower limit given is the upper one.
* `GaussMixDefects.density1D_flag_fails`: The density of one parameter of a mixture with limits on others is refused even if asked for with the flag for this.
* `GaussMixDefects.cond_weights_fails`: The density for known parameters is wrong for components of different weight: the weights are not used.
* `GaussMixDefects.cond_corr_fails`: It is also wrong for components of equal weight: the weight is computed with the inverse of the wrong matrix, so that correlations count where they should not.
* `GridFiles.copy_all_fails`: **C50** Fails when everything should be removed: with a fraction of one or more, every chain file is copied whole (and the copy is still flagged as having the burn-in removed, by `copy_flag`).
* `GridFiles.copy_ext_fails`: **C50** Fails when the extensions asked for also match the chain files (for example `*`): the whole chain file is copied over the shortened one.
* `GridFiles.copy_again_fails`: **C50** Fails for a run whose burn-in is already removed: the flag of the source is not looked at, so the same files are written for any flag.
* `GridFiles.clean_importance_fails`: **C78** Fails for runs with importance sampled versions: every chain of `name_post_tag` in the same directory is removed with the run.
* `GridScripts.plot_data_fails`: **C193** runGridGetdist.py:42-43: with `use_plot_data` set for getdist and no directory given, `os.path.abspath(None)` is an error.
* `GridScripts.procs_zero_fails`: **C193** runGridGetdist.py:98: with `--procs 0` the script waits for ever after starting the first job, as no processes are not fewer than zero.
* `GridScripts.relative_base_fails`: **C193** runGridGetdist.py:71-72: a file of defaults given relative to the current directory is written as it is, but is then looked for relative to the directory of the settings file (inifile.py:115-119).
* `GridScripts.normalized_fails`: **C193** extractDistFiles.py:37: normalized names only keep the text after the last dot, so `base_2D.pdf` replaces `base.pdf`.
* `GridScripts.camb_fails`: **C193** extractBestFitCAMB.py:35, 39: without the number of neutrinos or the tensor ratio among the parameters the script ends with a `KeyError`.
* `GridSetup.fallback_dir_fails`: **C209 fails**: with a relative path of the code (`python` started in its directory) the directory is put before the name twice (`os.path.join(batch.basePath, covdir2, …)`, gridconfig.py:179-181, where `covdir2` has it already), so no such matrix is found.
* `GridSetup.mapped_away_fails`: **C209 fails**: a name mapped to the empty text, as suggested in settings_sample.py:69 (`'TT': ''`), leaves two underscores (gridconfig.py:139-141), so the matrix is not found under its mapped name.
* `GridSetup.renamer_case_fails`: **C209 fails**: `re.sub(pattern, text, name, re.I)` gives the flag as the number of replacements (settings_planck_2015.py:607-611), so `_camspec` is not recognised.
* `GridSetup.new_chains_fails`: **C211 fails**: chains that were run after the grid was configured from existing chains (`makeGrid.py --readOnly`, or any script when there is no stored object) are never seen: the stored object is used as it is (batchjob.py:47-53).
* `GridSetup.new_settings_fails`: **C211 fails** likewise when the settings stored in `config` are changed.
* `GridSetup.reset_harmless_fails`: **C211 fails**: a stored object that cannot be read (another version of python) or was removed is replaced by the grid of existing chains, so jobs that have not been run yet are gone for `runbatch.py` and all other scripts (batchjob.py:37-38, 56-57: `readOnly=True`).
* `GridSetup.error_kept_fails`: **C211 fails**: for a grid without stored settings an unreadable object is deleted (batchjob.py:56) before the exception is raised again, so the next attempt says that there is no grid.
* `GridSetup.plots_fails`: **C211 fails**: `makePlots.py` stops with an `AttributeError` for every grid: the option is `--param_list`, the attribute read is `paramList` (batchjob_args.py:73, 88).
* `GridSetup.no_path_fails`: **C211 fails**: with `noBatchPath=True` there is no attribute `batchPath`, which is read nevertheless (batchjob_args.py:81).
* `GridSetup.select_without_fails`: **C211 fails**: with `importance=False` the attributes `noimportance` and `importance` are missing, which the selection reads (batchjob_args.py:105, 137).
* `GuiEdit.ini_line_fails`: **C234 fails**: the script for an ini file has `analysis_settings=r'…'` in the line of the plotter (mainwindow.py:1615): a change puts the dictionary before it (906-907) but leaves the line (909), so that the change is without effect
* `GuiEdit.two_plotters_fails`: **C234 fails**: of two plotters in the script only one gets the argument (mainwindow.py:908-911)
* `GuiEdit.brace_fails`: **C234 fails**: if the assignment has no brace, as in `analysis_settings = dict(...)`, everything up to the next line with one is deleted (mainwindow.py:897-900), here the plotter and its settings
* `GuiEdit.no_brace_fails`: **C234 fails**: without any brace the old assignment stays, after the new one (mainwindow.py:896-903)
* `GuiEdit.comma_fails`: **C234 fails**: every comma with a space becomes the end of a line (mainwindow.py:893, 1581), also within strings: with such a value the script is not Python
* `GuiEdit.first_line_fails`: **C234 fails**: if the plotter is made in the first line its index zero is taken for none (mainwindow.py:998), and the setting is not written
* `GuiEdit.duplicate_fails`: **C234 fails**: if a setting is assigned twice only the first is changed (mainwindow.py:991-995), and the second counts
* `GuiEdit.after_plot_fails`: **C234 fails**: a new setting is put after the last line with a setting (mainwindow.py:996-999), even if that comes after the plot
* `GuiEdit.bad_entry_fails`: **C234 fails**: the settings are emptied first and read up to the first entry that cannot be used (mainwindow.py:961-981): all after it are lost, also those that were set before
* `GuiEdit.empty_text_fails`: **C234 fails**: the empty text means the default (mainwindow.py:964)
* `GuiEdit.export_fails`: **C234 fails**: if the script has an export every `g.export` becomes a comment (mainwindow.py:1906-1908), also within other names like `fig.export`
* `GuiPlot.legend_fails`: **C232 fails**: with more than three roots the legend of one-dimensional plots on the screen has two columns (mainwindow.py:1711-1715); the script does not say so (1718)
* `GuiPlot.rectangle_color_fails`: **C232 fails**: with several x and several y a colour parameter is ignored without a message (mainwindow.py:1720-1731)
* `GuiPlot.style_map_fails`: **C232 fails**: a colour map as line styles, as in the style tab10, cannot be cut like a list (mainwindow.py:1694)
* `GuiPlot.style_color_fails`: **C232 fails**: only the last letter of a style is used as its colour (mainwindow.py:1694), so that `--C0`, an example of the documentation (plots.py:93), becomes `0`, which is black
* `GuiPlot.new_setting_fails`: **C232 fails**: the dialog has an empty row for a further setting (mainwindow.py:2231, 2255-2260); one that the default file does not have is a `KeyError` at the next plot (868)
* `GuiPlot.ini_back_fails`: **C232 fails**: if all settings of an ini file are set back to the defaults the script names the ini file (mainwindow.py:1614-1615)
* `GuiPlot.reset_fails`: **C232 fails**: "Reset analysis settings" makes a copy of the first settings (mainwindow.py:951-955) of which the plotter is not told: plots keep the settings from before, their scripts have the others
* `GuiPlot.open_priority_fails`: **C232 fails**: a change of settings overrides those saved with chains (mainwindow.py:885) only until another directory is opened, which makes a new plotter (1175)
* `GuiPlot.script_priority_fails`: **C232 fails**: in the script settings saved with the chains come first (plots.py:445), on the screen after a change of settings those of the window (mainwindow.py:885)
* `GuiPlot.escape_fails`: **C232 fails**: strings are put between quotes without escapes (mainwindow.py:1621-1623): in a label like `$\nu$` Python reads the end of a line
* `GuiPlot.root_quote_fails`: **C232 fails**: with three or more roots their names are put between quotes as they are (mainwindow.py:1629-1630): one with a quote ends too early
* `GuiSelect.z_fails`: **C236 fails**: the box for the third axis has texts with renames (mainwindow.py:1232), but after an update the name is looked for (1502-1507): a parameter with renames is replaced by the first one of the list whenever a root is added or checked
* `GuiSelect.alias_first_fails`: **C236 fails**: the first parameter that has the name or has it as a rename is selected (mainwindow.py:1212, paramnames.py:235-241), not the one that is called so
* `GuiSelect.same_name_fails`: **C236 fails**: roots are known by their names alone (mainwindow.py:1313-1318): for a root of another directory with the name of one in the list nothing is read, and the old one is plotted
* `GuiSelect.pca_fails`: **C236 fails**: for a PCA the names of the first root are taken as they are (mainwindow.py:784-790), and `PCA` drops what it does not know (mcsamples.py:642): with other names for the same parameters in the chosen root there is a PCA of fewer
* `GuiSelect.pca_error_fails`: **C236 fails**: if the chosen root has them as renames of its own there is a `KeyError` (mcsamples.py:644)
* `GuiSelect.save_latex_fails`: **C236 fails**: "Save latex" reads `_last_export_dir` of the dialog, which only the main window has (mainwindow.py:2185-2186): an `AttributeError` each time
* `Highlight.reopen_fails`: **C266 fails**: on a line on which a string of several lines ends no other can begin: whatever follows the end, the next line is not inside (SyntaxHighlight.py:147-149, 158-162: `add` stays zero, so that the delimiter that begins a string is taken for its end)
* `Highlight.overrun_fails`: **C266 fails**: of a string that begins and ends on a line three characters behind its end are coloured as well, and what begins there is not seen (SyntaxHighlight.py:161: `add` is added to the length)
* `IniFile.roundtrip_fails_for_references`: With environment expansion on (the default), the round trip fails for values containing `$(`: the value is expanded again when the saved file is read.
* `IniFile.comments_leak_fails`: **C06 fails for DEFAULT files**: when a setting of a DEFAULT file is skipped because it is already defined, the comment that precedes it is attached to the next setting instead (`continue` at inifile.py:94 bypasses the reset at line 104).
* `IniFile.loaded_filename_fails`: **C51 fails with INCLUDE or DEFAULT**: after loading `d/main.ini` the object believes it belongs to the last DEFAULT file, so `saveFile()` overwrites that file and relative names resolve in its directory.
* `IniFile.include_unclosed_fails`: without the closing bracket the last character of the file name is lost
* `JobIndex.resubmit_fails`: **C28 is false of the code**: a run that is submitted a second time (same job name, same run name, new id) and whose first job is then deleted can no longer be found by job name or run name, although the second job is still in the index; deleting the second job raises a `KeyError`.
* `JobIndex.same_run_twice_fails`: a job with two runs of the same name (from different directories) can never be deleted
* `JobIndex.crash_fails`: **C29 is false of the code**: a crash between removing the old file and renaming the new one leaves no index; the next load returns an empty index without any error, and the next job added is then the only one in the file
* `JobIndex.concurrent_add_fails`: two submissions at the same time: if both load before either saves, the job saved first is lost
* `JobIndex.delete_ids_fails`: **C63 is false of the script**: `--delete_ids` never deletes or cancels anything, because the numbers are compared with the texts in the index
* `JobIndex.delete_range_fails`: **C63 is false of the script**: `--delete_id_range` on its own also deletes every job of the (filtered) batch
* `JobIndex.py3_listing_fails`: **C64 is false of the code under python 3**: `str` of the bytes printed by the queue program has no line breaks, so the listing is always found empty
* `JobIndex.py3_delete_fails`: under python 3 `deleteJobs` therefore removes the selected jobs from the index but cancels none of them
* `JobIndex.py3_range_fails`: and the id of a job submitted under python 3 is not a number: a range of ids raises a `ValueError`
* `JobResults.stale_best_fails`: **C256 fails**: a best fit that cannot be read leaves the one loaded before, while all other results are dropped (batchjob.py:431-435)
* `JobResults.stale_R_fails`: **C256 fails**: once the convergence is known it is not read again, so a run that has converged since is still reported with the old value (batchjob.py:415-420)
* `JobResults.no_converge_fails`: **C256 fails**: if the convergence was not written the limits are not loaded although they are there; it is not checked for, as it is in `R` (batchjob.py:438-439)
* `JobResults.no_like_fails`: **C256 fails**: without the likelihood statistics there is an error that leaves the limits without their best fit (batchjob.py:440-442)
* `JobResults.unreadable_minimum_fails`: **C256 fails**: a best fit that cannot be read is not a failed minimization but stops the script that would repeat it (batchjob.py:377-380, runbatch.py:98)
* `JobStatus.chainNames_number_fails`: **C79** Fails with a number: the list starts with the chain number zero, which never exists, and lacks the last chain.
* `JobStatus.dodgy_none_fails`: **C79** Fails without chains: asking raises an error, unless there is a second chain.
* `JobStatus.dodgy_gap_fails`: **C79** Fails for larger gaps: chains 1 and 4 without 2 and 3 do not count as stuck.
* `JobStatus.needsUpdate_other_fails`: **C80** Fails for the other chains: a later change of any chain but the first is not noticed.
* `JobStatus.parentChanged_missing_fails`: **C80** Fails without the parent's chain: an error instead of an answer.
* `JobStatus.unreadable_not_listed_fails`: **C81** Fails in the check of convergence: a run that has samples but no readable convergence value is listed neither as missing nor as not converged, for any limit.
* `JobStatus.auto_empty_fails`: **C81** Fails with an empty table of auto-correlations: the file cannot be read at all, so its eigenvalues are lost too.
* `JobStatus.auto_label_fails`: **C81** Fails for a parameter without label: the last value of its line is lost.
* `JobStatus.unknown_not_submitted_fails`: **C82** Fails for runs never analysed: with a convergence limit, a run whose convergence is unknown is never submitted.
* `JobStatus.ready_without_samples_fails`: **C82** Fails for importance runs when asked for finished parents: the parent's status file decides, so the run is submitted though the parent has no samples; without the option it is not.
* `JobSubmit.nonsense_accepted_fails`: requests without sense are accepted: no nodes, or no cores
* `JobSubmit.cores_option_fails`: the default number of chains per node comes from the machine of the caller and not from `coresPerNode`: asking only for 16 cores per node on a machine with 12 cores is refused
* `JobSubmit.zero_threads_fails`: `submitJob` called with more parameter files than `runsPerJob` gives chains without any thread
* `JobSubmit.same_line_fails`: two settings on one line: the first swallows the second
* `JobSubmit.ext_env_fails`: a further environment variable named by the caller is never read (the code looks for a variable called `ext_env`)
* `JobSubmit.runsPerJob_fails`: **C31 is false for `runsPerJob`** when it comes from the command line parser: the parser always supplies a value, so the template is never consulted and the environment wins over it
* `JobSubmit.long_names_fails`: **C32 is false of the code under python 3**: two runs in one job whose names together have 70 characters or more cannot be submitted: the job name cannot be hashed (`TypeError`), and the program stops
* `JobSubmit.job_name_fails`: different jobs of one batch can get the same name, so that the second overwrites the script and the index entry of the first
* `JobSubmit.stripIni_fails`: but also everywhere else: such a run is submitted with a parameter file that does not exist
* `JobSubmit.nested_value_fails`: **C62 is false in general**: a value that contains a placeholder is expanded again, depending on the order of the values
* `JobSubmit.adjacent_fails`: and text between two placeholders can be taken for a placeholder
* `Kde1D.priorMask_nowindow_fails`: without a window the assignments to the last `winw` entries clear the whole mask: there is no correction at an upper limit
* `Kde1DBins.bounds_history_fails`: **C69 fails** before that: `getBounds` after loading reports every prior limit, however far the samples are from it; asking for a density changes the answer
* `Kde1DBins.kdeBin_centre_fails`: the positions of `kde.bin_samples` are lower edges: a sample can be almost a bin from the position of its index
* `Kde1DBins.kdeBin_limits_fails`: limits inside the samples give indices outside of the array: refused when counting
* `Kde1DFlat.window_bounds_fails`: with fewer bins the kernel degenerates: a single point at seven bins and a negative half width at three
* `Kde2DLaws.window_fails`: **C126** Fails for a window of a degenerate kernel: zero width or full correlation has no inverse (LinAlgError), so `smooth_scale_2D = 0` and two equal parameters are refused deep inside numpy.
* `Kde2DSettings.band_sign_fails`: **C127** Refuted: for two parameters with hard limits and a strong correlation the method depends on the sign of the correlation (mcsamples.py:1283 tests `corr > 0.8` and not its size): with positive correlation a fixed width is used, with negative the optimizer for uncorrelated kernels, although reversing one parameter turns one case into the other.
* `Kde2DSettings.order2_fails`: **C127** Refuted: `boundary_correction_order=2`, which one-dimensional densities accept, is refused for two parameters if one of them has a hard limit (mcsamples.py:1781), and only then.
* `Kde2DSettings.max_corr_fails`: **C127** Refuted: `max_corr_2D = 1` is accepted, though the message of the check says it cannot be (`abs(..) > 1`, mcsamples.py:1666-1667); for two fully correlated parameters the kernel is then singular and the density fails.
* `Kde2DSettings.explicit_corr_fails`: **C127** Refuted: the limit on the correlation of the kernel is not applied if the smoothing is set explicitly (mcsamples.py:1704-1709): two parameters one of which is a multiple of the other give a singular kernel, for any allowed `max_corr_2D`.
* `Kde2DSettings.zero_window_fails`: **C127** Refuted: with little smoothing (less than a fifth of a bin) the window is a single bin, and `prior_mask[:, -winw:] = 0` clears the whole mask instead of nothing (mcsamples.py:1574, 1583): the correction for an upper limit is silently left out, and the bias correction divides by a mask that is zero everywhere, whatever the limits.
* `Kde2DSettings.bias_scale_fails`: **C127** Refuted: with bias correction (the default) the density depends on the overall scale of the weights, which carries no information: where the estimate is below 1e-8 of the maximum the histogram is used as it is, and not divided by the estimate (mcsamples.py:1788-1791). Here 10^10 samples fall in one bin and one in another: if all weights are multiplied by `s`, the ratio of the densities is multiplied by `s` (so that for large `s` the single sample becomes the maximum).
* `LikeTable.empty_text_fails`: **C274 fails**: statistics without parameters, in particular any that were read from a file (types.py:834-850 sets no names), cannot be turned into text: the width of the name column is computed before looking whether there are names (types.py:868-869), and `max` of an empty list raises. The guard `if len(self.names)` never helps.
* `LikeTable.limits_lost_fails`: **C274 fails**: the extremes of the regions do not come back: two statistics that agree in the summary are read back the same (types.py:836-838 stops at the empty line, 850 "TODO").
* `LikeTable.run_together_fails`: **C274 fails**: negative numbers with exponents of three digits fill their fifteen characters and run together with what is before (types.py:874 `%15.7E%15.7E`), so the line has too few columns.
* `ListGrid.options_fails`: **C264 fails**: `--notexist` and `--converge` are accepted and have no effect: runs are listed also if their chains exist and whatever their convergence (listGrid.py:6, 11)
* `ListGrid.inner_ini_fails`: **C264 fails**: `.ini` is removed wherever it occurs, so that a file in a directory such as `run.initial` is not found, and different files may be the same job (runMPI.py:15)
* `LoadCache.new_chain_ignored_fails`: **C44**: a further chain file with an old time stamp (a copied chain) is not noticed.
* `LoadCache.stale_limits_fails`: **C44**: parameter limits in the settings are ignored by a cached load, and limits of an earlier load persist, even when the contours change and the statistics are computed again.
* `LoadText.short_row_fails`: **C258 fails**: a row that is not complete, as the last one of a chain that is still running, is refused without pandas, but with pandas its missing parameters are `nan` (chains.py:130-131)
* `LoadText.column_fails`: **C258 fails**: a file with a single column has one row without pandas (chains.py:137)
* `LoadText.empty_chain_fails`: **C258 fails**: an empty chain is never reported as such: pandas has an error of its own, and the array of numpy has one row (chains.py:233-234)
* `MakeTables.columns_fails`: With `--columns` each table fails and is left out: because of `nargs=1` (makeTables.py:49) the value is a list, which types.py:311 divides by.
* `MakeTables.all_limits_fails`: With `--all_limits` and a file in a directory the second file is written to a directory of this name within the first, and so on: makeTables.py:330-331 changes into the directory each time.
* `MakeTables.separate_fails`: With `--separate_tex` and `--all_limits` the tables of the three limits are written to the same file (makeTables.py:314): those of the last remain.
* `MakeTables.extension_fails`: A file name with its extension gives names like `tab.tex_limit1.tex` (makeTables.py:211-213).
* `MakeTables.nobestfit_fails`: `--nobestfit` leaves out only the column of the table: the best fit is loaded all the same (batchjob.py:435), and its χ² and those of the likelihoods are printed (makeTables.py:105-111, 133-147).
* `MakeTables.ignored_fails`: Data ignored are left out of the tag looked up but not of the tags of the references (makeTables.py:185-192, 203): the item of the base model with the very same data is not found.
* `MakeTables.average_fails`: With `--systematic_average --changes_from_datatag` the item with the data asked for gets a heading and no table: it is its own reference, which makeTables.py:98-100 removes before line 127 uses it.
* `MakeTables.unkind_fails`: A likelihood without a kind in the best fit has a list for its name (types.py:537-540), which has no `replace`: the whole table of the item is left out (makeTables.py:143, 316-318).
* `MakeTables.both_fails`: With both options the references for added data are looked up among those for replaced data (makeTables.py:277 sets the same variable again), and are not found.
* `MakeTables.underscore_fails`: When the name of other data has an underscore the item is not found: `normalizeDataTag` sorts the parts of names (makeTables.py:296, batchjob.py:523-524), the tags of the items are made of sorted names.
* `MargeStats.empty_label_fails`: a parameter without label is read with the tag of its last limit as label
* `MargeStats.no_names_fails`: statistics without parameters cannot be written
* `MargeStats.force_twotail_fails`: asking for two tail limits only does not give them
* `MargeStats.max_frac_fails`: neither does a cut above the density at the ends, nor the absence of prior limits
* `MeanLikes.flat2_fails`: **C226 fails**: with correction of bias (the default) the likelihoods are corrected but then divided by the density before its correction (mcsamples.py:1733-1740), so that a constant likelihood is not shown as constant
* `MeanLikes.flat1_fails`: **C226 fails**: in one dimension the likelihoods are corrected for bias even if the density is not (mcsamples.py:1554-1556)
* `MeanLikes.logs_fails`: **C226 fails**: bins without samples, whose sum of logarithms is zero, take part in the minimum (mcsamples.py:1558); with usual values of -log(like), in the hundreds, all bins with samples are then more than 30 away and set to zero, as are the empty ones, and the division by the maximum gives nan everywhere
* `MeanLikes.logs_shift_fails`: **C226 fails**: for the same reason as with likelihoods the constant is multiplied by a factor that differs from bin to bin; with -log(like) in the hundreds this factor, not the likelihood, decides what is shown
* `MergeRenames.mergeRenames_drops_fails`: **C09 without `keep_names_1st`**: a whole alias class is dropped when its names are all keys of the inputs, e.g. `mergeRenames({'a': 'b', 'b': 'a'})` is empty although `a` and `b` are declared aliases.
* `MergeRenames.mergeRenames_leftmost_fails`: ... and the key is then not taken from the left-most input that knows the class.
* `NameLists.nameEquals_fails`: **C222 fails**: `nameEquals` compares its argument with itself (paramnames.py:93, 95), so every parameter has every name, and no parameter has the name of a parameter, not even its own
* `NameLists.names_space_fails`: **C222 fails**: names given as a list are read as lines of a file (paramnames.py:184), so that what follows a space silently becomes the label
* `NameLists.label_default_fails`: **C222 fails**: the default label is set before the name is known (paramnames.py:83, 88-89), so that `labels()` of a list made from names is a list of empty texts, while `ParamInfo(name=...)` has its name as label
* `NameLists.add_existing_fails`: **C222 fails**: `addDerived` accepts a name that is taken (paramnames.py:352-364); the name goes on meaning the old parameter
* `NameLists.rubin_columns_fails`: **C222 fails**: the Gelman-Rubin test takes as many parameters from the start of the list as there are ones that are not derived (chains.py:1408-1410): with a derived parameter before others it tests that one and leaves out the last
* `NumFmt.decimals_fails`: 9.9609375 ± 1 is printed as 9.96 ± 1.0
* `NumFmt.rounding_fails`: 123456 ± 30 is printed as 123500 ± 30 (without scientific notation, as for chi-squared values): off by more than the error
* `NumFmt.zero_fails`: a value of zero with zero error cannot be printed
* `NumText.negative_dot_fails`: **C218 fails**: `-.5` is not taken for a number but is read as a text: the alternative for numbers that begin with the point has no sign (yaml_tools.py:30), although `.5`, `-0.5` and `-.inf` are numbers
* `NumText.dot_exponent_fails`: **C218 fails**: `.5e3` is not taken for a number: after a number that begins with the point the exponent needs a sign (yaml_tools.py:30), although `0.5e3` and `.5e+3` are numbers
* `NumText.underscore_fails`: **C218 fails**: the text `._` is taken for a float (yaml_tools.py:30 allows underscores alone after the point), and its conversion is a `ValueError` that stops the loading of the file
* `OddMoments.independent_fails`: **C272 fails**: for an even number of bins (the code uses 256 by default) independent parameters have odd moments, because the highest frequency is taken with one sign only (kde_bandwidth.py:204-207): two bins each with all in the first.
* `OddMoments.mirror_fails`: **C272 fails**: for an even number of bins the odd moment of the mirror image is not minus that of the data (kde_bandwidth.py:204-207).
* `PCADefects.map_shift_fails`: **C143** If one of the parameters does not exist it is left out, but the letters of the map are not moved: the letter of the missing parameter is used for the next.
* `PCADefects.negative_fails`: **C143** A parameter that is always negative does not cross zero but is never logarithmic by default.
* `PCADefects.wide_fails`: **C143** A parameter that is always positive is not logarithmic by default if it varies by more than a factor of eleven.
* `PCADefects.zero_fails`: **C143** A parameter that is always zero is logarithmic by default: the logarithm of zero is taken.
* `PCADefects.norm_missing_fails`: **C143** A normalisation parameter that is not there is ignored without a message.
* `PCADefects.command_num_fails`: **C143** The command line makes a map of `PCA_num` letters whatever the number of parameters, so that asking for less than all is an error.
* `PCADefects.cond_error_fails`: **C143** With conditional parameters the error printed for a component is not the conditional one, to which the eigenvalue belongs (`printed_spec`): it is as large as without them.
* `PCADefects.degenerate_fails`: **C143** Components of the same eigenvalue need not be uncorrelated: nothing that is documented of the routine for general matrices makes the vectors orthogonal. Here is one that keeps to the documentation, and two parameters that are not correlated whose components are.
* `Packaging.quote_fails`: **C270 fails**: the closing quote may be of the other kind, so a version with an apostrophe in double quotes is cut off (setup.py:14).
* `Packaging.blanks_fails`: **C270 fails**: an assignment that python accepts with other blanks is not found (setup.py:14).
* `Packaging.title_fails`: **C270 fails**: the description ends with the title of the last section when this is above a rule of equal signs (setup.py:23-26): only the rule and what follows it are left out.
* `ParamNames.label_bang_fails`: The exclusion of `!` in labels is needed: a label with `!` comes back as a backslash.
* `PlanckGrids.runs_distinct_18_fails`: **C252 fails**: two runs of the grid of 2018 have the same root, so that the chains of one replace those of the other: the base model with `plikHM_TT_lowl` is in the group `nopoltau` and again in the group `Alens` (settings_planck_2018.py:223-226, 461-469)
* `PlanckGrids.sterile_order_fails`: **C254 fails**: with the parameters in the other order the limit that goes with sterile neutrinos is replaced by the usual range of the number of neutrinos (gridconfig.py:118-123: the range of a later parameter replaces an option of an earlier one)
* `PlanckGrids.lensing_wmap_fails`: **C254 fails**: lensing data are meant for runs with a Planck likelihood, and lensing alone is not added to the run with WMAP data of 2015; but together with baryon oscillations it is, since that run has another filter (settings_planck_2015.py:142, 516)
* `PlanckGrids.fix_cl_fails`: **C254 fails**: the correction of the lensing window is meant to be left alone for data that are marginalised over the CMB, but the test looks for `CMBmarged` in the name of the variant and not in the tag of the data, so the variants `ptt` and `pttagr2` get the option (settings_planck_2018.py:404-405)
* `PlanckGrids.camspec_tag_fails`: **C254 fails**: a run of the sample for CamSpec cannot be found by the tag of its data, since the name of the likelihood has underscores (settings_sample_camspec.py:26, batchjob.py:524-525)
* `PlanckStyle.label_fails`: **C220 fails**: the label of the TE data with low-l temperature has one dollar (planckStyle.py:57): LaTeX reads the rest of the text as a formula
* `PlanckStyle.plot_data_fails`: **C220 fails**: the argument `plot_data` has no effect unless plot data are used by default, which they are not (getdist/__init__.py:65): the plotter for it is replaced by one for the grid (planckStyle.py:259-260)
* `PlanckStyle.sizes_fails`: **C220 fails**: every call of `getSubplotPlotter` adds two points to the sizes of letters in the settings of the module (planckStyle.py:266-267), so that the second plot of a script has larger letters than the first
* `PlanckStyle.subplot_size_fails`: **C220 fails**: `getPlotterWidth` looks for the argument `subplot_size` but also passes it to `rcSizes`, which does not know it (planckStyle.py:283-284): TypeError
* `PlanckStyle.ncol_fails`: **C220 fails**: the preamble does not depend on the number of columns of parameters (planckStyle.py:362-373): with two, the rows have more cells than it has columns, and TeX stops
* `PlanckStyle.byName_fails`: **C220 fails**: the text `_TT_` is looked for in the whole path (planckStyle.py:239): in a directory with it, the likelihood of every chain is that of TT alone
* `PlanckStyle.bands_fails`: **C220 fails**: one band is drawn when none is asked for, and three for any larger number (planckStyle.py:151-153)
* `PlikCoadd.setup_fails`: Under python 3 the likelihood cannot be set up: the number of bins is the quotient of two integers, a float, and is used to cut an array. (CMB_plik.py:50, 61)
* `PlikCoadd.ttLength_fails`: The length of the coadded temperature spectrum is a float (multipoles are a product with the bin weights), which numpy does not accept. (CMB_plik.py:61, 281)
* `PlikCoadd.wideBins_fails`: Bins of more than one multipole cannot be put into the array of multipoles. (CMB_plik.py:281-283)
* `PlikCoadd.firstBlock_fails`: Rows without data are left out of the covariance, but the temperature block is cut as if all were there: with a temperature bin not used, bins of another spectrum are returned as the last bins of temperature. (CMB_plik.py:239-240, 285)
* `PlikCoadd.candidate_fails`: The letter is taken out everywhere before an underscore. (CMB_plik.py:24)
* `PlikCoadd.fewNames_fails`: With fewer names than the library has, the likelihood fails with a KeyError at the first call. (CMB_plik.py:92, 99)
* `PlikPostFiles.noChi2_fails`: Without a line of chi squared the last parameter is written twice. (plik_postprocess.py:123-132)
* `PlikPostFiles.blankLine_fails`: Blank lines in the file of names are counted for the place of the new columns but have no column: the columns are shifted. (plik_postprocess.py:123-127, 209)
* `PlikPostFiles.oneRow_fails`: A chain of one row is read as a vector. (plik_postprocess.py:187, 195, 209)
* `PlikPostFiles.noLimits_fails`: A parameter without limits has two equal words, which are taken for its fixed value. (plik_postprocess.py:140-141)
* `PlikPostFiles.order_fails`: A component of three channels after one of six cannot be added. (plik_postprocess.py:63-67)
* `PlikPostFiles.interrupted_fails`: Chains are only marked at the end: after an interruption names and chains get the parameters once more. (plikParams.py:44-46)
* `PlikPostFiles.tag_fails`: Underscores are taken out of the tag for the chains only. (plik_postprocess.py:119, 190)
* `PlikPostFiles.lastLine_fails`: The expression then takes a blank for the name, and the parameter is missing. (plik_postprocess.py:16-21)
* `PlotArgs.one_dict_fails`: With one dictionary of plot arguments, the defaults of the first line are written into it (plots.py:773, 786, 830-839): all later lines have the colour and style of the first.
* `PlotArgs.kwargs_stay_fails`: Arguments of one call are kept in the plot arguments of the settings (plots.py:775, 786) and apply to later plots, e.g. a colour given once, or the dashes of an earlier line style.
* `PlotArgs.caller_list_fails`: A list of arguments is changed in place (plots.py:1369, 1385): it is lengthened, and the colours and styles of one call stay in it for the next.
* `PlotArgs.tuple_fails`: A tuple of arguments is assigned to (plots.py:1369, 1385) and fails.
* `PlotArgs.short_filled_fails`: With a list `filled` that has no value for a contour, the list itself becomes the value (plots.py:1403-1404), which counts as true: e.g. with `filled=[False]` the second root is drawn filled.
* `PlotArgs.reverse_fails`: With fewer labels than contours, which is fine in the usual order, the reverse order asks for labels that are not there (plots.py:1901-1904).
* `PlotArgs.offset_fails`: The offset of the labels is used only for lines that were not drawn (plots.py:1878-1886): with `line_offset=1` the first label still goes to the first line.
* `PlotArgs.factor_fails`: Beyond the maximum axis size the factor is always two, whatever `scaling_factor` is (plots.py:258): with a factor of three and a maximum above the reference size, fonts become smaller there.
* `PlotArgs.small_font_fails`: Font sizes below five are set to five on small axes (plots.py:256), larger than asked for.
* `PlotArgs.thin_line_fails`: Widths below 0.6 are set to 0.6 (plots.py:264), so that the default width of mean likelihood lines, 0.5, is never used; and a width of zero is replaced by the default (plots.py:261).
* `PlotArrays.no_triplets_fails`: **C276 fails**: an empty list of triplets divides by zero (plots.py:2184, 1709-1710).
* `PlotArrays.repeated_lines_fails`: **C276 fails**: every subplot of `plots_3d` adds its own proxies (plots.py:2878-2879, 2971), for `k` subplots there are `k` lines for each root.
* `PlotArrays.reversed_legend_fails`: **C276 fails**: after `plots_3d` with two subplots there are more lines than labels, and the order minus one runs over the lines: `add_legend` fails with an index error (plots.py:1900-1903).
* `PlotArrays.gap_kept_fails`: **C276 fails**: a contour missing from the first subplot of `plots_3d` leaves its label without a line although a later subplot draws the contour (plots.py:1058-1061, 1072-1074): unlike in `plots_2d` the gap is never filled.
* `PlotCalls.lims_none_fails`: **C230 fails**: `plot_2d` computes limits only if there is no argument `lims` at all (plots.py:1688), while `plot_1d` and `set_axes`, whose default it is, take `None` for none given; with `lims=None` the axes keep the limits that contours of the last root happened to leave
* `PlotCalls.first_prior_fails`: **C230 fails**: the limits are cut at the hard priors of the first root only (plots.py:1689-1690): what other samples allow outside them is not shown
* `PlotCalls.y_numbers_fails`: **C230 fails**: with fewer than two parameters `set_axes` leaves the numbers of the y axis (plots.py:1484), though it hides those of the x axis
* `PlotCalls.no_setting_fails`: **C230 fails**: for densities that come without levels, settings without `contours` (they may have `num_contours`, `contour1`, ... instead, mcsamples.py:384-385) are an error: what `ndarray` gives then is not `None` (plots.py:1062-1064)
* `PlotCalls.stored_levels_fails`: **C230 fails**: the levels are stored in the density (plots.py:1065) and used for all later plots of it, whatever number is set then
* `PlotCalls.shade_fails`: **C230 fails**: with `shade_meanlikes` a density that the user provides must have an attribute `likes` (plots.py:1160-1161), which `Density2D` does not set
* `PlotCalls.stale_names_fails`: **C230 fails**: names and bounds are kept until `new_plot` (plots.py:906-908, 917-919): labels from `param_names_for_labels` set after the first plot of a root, or a root that was removed and read again, have no effect on plots that follow in the same figure
* `PlotGrid.pattern_list_fails`: A pattern in a list of parameters only gives its first match: the list of matches is zipped with the list of items (plots.py:1800-1801).
* `PlotGrid.pattern_question_fails`: A pattern with `?` in a list is an error: a `ParamInfo` is made of the text first (plots.py:1799).
* `PlotGrid.check_original_fails`: The documentation of `_check_param`: "returns the original ParamInfo if ParamInfo was passed" when it is not found; none is returned (plots.py:1825-1826), so `plots_2d` and `plots_1d` with `roots_per_param` fail with an AttributeError.
* `PlotGrid.check_renames_fails`: With `param_renames` a name finds a parameter through the table, an object of the same name does not: the table is replaced by its entry for the name of the object (plots.py:1819-1820).
* `PlotGrid.usetex_paths_fails`: With LaTeX (`text.usetex`) two chains with the same name (with an underscore) in different directories get the same label: the label is escaped before it is looked for in the root name (plots.py:2012-2013), so the directory is not shown.
* `PlotGrid.per_param_labels_fails`: With `roots_per_param` the default legend labels are lists of roots, one per parameter (plots.py:2107-2108: the labels are made of `roots`, which is a list of lists).
* `PlotGrid.list_rename_fails`: A parameter with a list of new names is left out even if one of them is wanted: the list itself is looked for among the names (plots.py:2083-2085).
* `PlotGrid.not_shared_fails`: With `share_y=False` fewer than six plots are put in one row (plots.py:2089-2090), with the default they are not.
* `PlotGrid.pairs_object_fails`: An x parameter given as an object that the first root does not have is an AttributeError instead of an error that says so (plots.py:2147, 2150).
* `PlotGrid.max_z_fails`: `max_z` is applied before the x and y parameters are left out (plots.py:2992-2995): with `max_z=2` and the first two parameters as x and y there is no plot at all.
* `PlotGrid.axis_labels_fails`: With limits the axes of `plot_3d` are labelled by the parameters of the last root, and for one root with `params_for_plots` there are none (an error): the variable `params` is used again in the loop (plots.py:2932, 2941).
* `PlotGrid.zero_factor_fails`: A factor of zero is not used: `pale_factor or setting` (plots.py:1004), so contours cannot be given all the same colour that way.
* `PlotLayout.no_plots_fails`: With nothing to plot (an empty list of parameters, or all other parameters filtered out) the number of columns is zero and the division by it fails (plots.py:1709-1710).
* `PlotLayout.single_plot_fails`: `get_axes` stores the parameters as `getdist_pars`, but `get_axes_for_params` looks at `getdist_params` (plots.py:2222-2223, 3257): the axes of a plot made by `plot_1d` alone are not found.
* `PlotLayout.other_prior_fails`: Only the prior bounds of the first root plotted are applied to the range of the plot (plots.py:1598-1599, 1690-1691): the density of a second root with wider bounds is cut off.
* `PlotLayout.proxy_missing_fails`: A missing legend entry is filled by a later subplot only if it is the first that is missing (plots.py:1073-1074): with two roots absent from the first subplot, the second of them can stay without an entry although it is drawn.
* `PlotLayout.rect_labels_fails`: With `yroots` or `plot_roots` and no labels, the number of legend columns is the length of `None` (plots.py:2656-2661): `rectangle_plot` fails after drawing everything.
* `PlotLinks.upper_x_fails`: With `upper_roots` a change of the x range of a plot in the upper triangle reaches the whole column but not the row of the same parameter: the upper plots only get the callback for y (plots.py:2525-2526), so the y ranges of the lower plots keep the old range.
* `PlotLinks.first_diagonal_fails`: With `upper_roots` the first 1D plot has no callback (plots.py:2435 connects only `i > 0`): a change of its range reaches the first column but not the first row of the upper triangle.
* `PlotLinks.right_label_fails`: With `upper_label_right` any change of the x range of a 2D plot in the first column raises an AttributeError: `label_ax = self.subplots[0, bottom]` (plots.py:2452) is read before that subplot is made, so the callback (2494-2497) calls `None.get_ylim()`.
* `PlotMake.given_size_fails`: **C248 fails**: `get_subplot_plotter(settings=s)` sets the size of subplots in `s` to 2 inches and removes its ratio (plots.py:716-717 with 266-279), and `get_single_plotter(settings=s)` sets its total width to 6 inches (plots.py:701-706), whatever `s` says
* `PlotMake.given_width_fails`: **C248 fails**: `get_single_plotter(settings=s)` alone does so for the total width that `s` has (plots.py:701, 706)
* `PlotMake.shared_fails`: **C248 fails**: settings given to two plotters are one object, so that making the second changes the sizes of the first (plots.py:687, 717)
* `PlotMake.rc_sizes_fails`: **C248 fails**: `get_subplot_plotter(rc_sizes=True)` does nothing unless a total width is given too (plots.py:720-723), though the documentation says that it sets the sizes of fonts
* `PlotMake.rotation_zero_fails`: **C250 fails**: `add_colorbar_label(cb, param, label_rotation=0)` does not give a horizontal label, since zero counts as not given (plots.py:2740); the default is -90 degrees
* `PlotMake.offset_fails`: **C250 fails**: the text of the offset or power of ten shrinks when the tick labels grow from 7 to 8 points (plots.py:1424)
* `PlotMake.one_contour_fails`: **C250 fails**: with two roots `plots_3d` draws one contour and gives it no label (plots.py:2972 with 2029-2031)
* `PlotMake.numbers_3d_fails`: **C250 fails**: samples without label are numbered from the first contour on, so that the second samples are `samples0` in `plots_3d` and `samples1` elsewhere (plots.py:2972 with 2018, 2032)
* `PlotStyle.font_size_fails`: The table has the old name `font_size` with a blank at its end (plots.py:134), so that the old name is refused as unknown.
* `PlotStyle.meanlikes_fails`: Plots with mean likelihoods read the setting `linewidth_likes` (plots.py:984), which does not exist (it is `linewidth_meanlikes`, plots.py:210) and is no old name: they fail.
* `PlotStyle.subclass_fails`: Old names are looked up only in the table of the object's own class (_base.py:17): settings of a subclass refuse them.
* `PlotStyle.redefine_fails`: Defining the active style anew with `activate=True` does nothing to the parameters, because the name is already active (plots.py:3295).
* `PlotStyle.plotter_style_fails`: Asking for one plotter in another style makes this style the active one for all plotters after it (plots.py:3288-3289).
* `PlotStyle.user_rc_fails`: Parameters set by the user while a style is active are lost when the style is changed (plots.py:3303-3304).
* `RafteryChains.ideal_chain_fails`: **C136** A chain that looks perfectly independent is reported as failed or too short, however long it is: the logarithm of zero is taken, and the exception is caught and taken for lack of samples. Here every run of three values occurs equally often.
* `RafteryChains.alternating_fails`: **C136** A chain that jumps to the other side in every step is also reported as failed or too short: the logarithm of one is divided by.
* `RafteryChains.near_integer_fails`: **C136** Weights a little above whole numbers pass the test that they are next to whole numbers, but then thinning refuses them, and the chain is reported as failed or too short, however long it is.
* `ReadChains.script_double_burn_fails`: **C60** the command line script removes a burn-in given as number of rows twice
* `ReadChains.script_burn_removed_fails`: **C60** the command line script removes burn-in from chains marked as already processed
* `ReadChains.samples_are_chains_fails`: **C61** but `loadChains`, used by the script option `samples_are_chains = F`, always takes the first two columns as weight and likelihood
* `Rename.odd_pairs_fails`: An odd last name is left out without a message (renameParam.py:33).
* `Rename.clash_fails`: A parameter can be given the name of another one without a message (renameParam.py:43-45): the second can then not be found by name.
* `Rename.run_together_fails`: A new name as long as the old one with its blanks, or longer, leaves no blank (renameParam.py:74): name and label become one word.
* `Rename.no_label_fails`: A line without label has seven items, not fewer (renameParam.py:80-85): a label for it is not added but an error.
* `Rename.label_by_old_fails`: The label file is asked for the new name for `.paramnames` files, but for the old name for best fit files (renameParam.py:50, 76).
* `Rename.minimum_write_fails`: Best fit files are opened for reading before they are written (renameParam.py:90): with `--confirm` the first chain that has one with a parameter to rename ends the script with an error. Its `.paramnames` file is renamed already, its best fit file is not, the other chains are not.
* `SNRead.blankLines_fails`: The arrays are one longer for every blank line of the file (an empty line at the end for example), so their length is not the number of supernovae and the products with matrices fail. (SN.py:91)
* `SNRead.commentResets_fails`: Any line with a hash sign, a comment after the data or a hash sign in a name, is taken for a header: all values read before are replaced by zeros. (SN.py:83)
* `SNRead.nameOverwritten_fails`: The column of names makes the reader assign an array of zeros to the attribute `name`, which held the name of the data set. (SN.py:55, 95-96)
* `SNRead.cachedInverse_fails`: The inverse is kept for parameters that `np.isclose` regards as equal, so the likelihood near a point depends on which point was computed before: it is not a function of the parameters, and derivatives by small steps are wrong. (SN.py:198-199)
* `SNRead.failedInverse_fails`: The parameters are stored before the matrix is inverted: when that fails for a singular matrix, the same call succeeds the next time, with the inverse for the parameters before. (SN.py:200-201, 224)
* `SNRead.margeAttribute_fails`: With the covariance of magnitudes only, marginalisation and `precompute_covmats=False`, no matrix is ever inverted and the first likelihood fails. (SN.py:179, 183, 248)
* `SNRead.crossCovariance_fails`: The covariance of the magnitude of one supernova with the stretch of another need not be that of the second magnitude with the first stretch; the code adds twice the matrix instead of the matrix and its transpose, and the result is not even symmetric. (SN.py:211, 213, 215)
* `SampleDict.value_fails`: A parameter `a` and a parameter `a.value` have the same place: only the later one is found (chains.py:1243-1246).
* `SampleDict.best_wanted_fails`: With `best_sample=True` the arguments `want_derived` and `want_fixed` are ignored (mcsamples.py:2349).
* `SampleDict.no_loglike_fails`: For samples made without likelihoods, the dictionary of a sample fails (chains.py:1270), as does the best sample.
* `SampleDict.no_root_fails`: For samples not loaded from files the root is `None` and the best fit fails with a `TypeError`, not with the message meant for it (mcsamples.py:2103).
* `SampleDict.dotted_fails`: Names with dots are split into objects by `getParams` but looked up as one attribute (mcsamples.py:2395): samples with such a parameter in common cannot be joined.
* `SampleDict.stale_props_fails`: A properties file of other samples under the same root is kept and added to (mcsamples.py:2411-2412): e.g. `burn_removed` of old chains then holds for the new ones, and no burn in is removed on loading.
* `SampleDict.other_text_fails`: Any other text file with an underscore in its name that sorts first is taken for a chain (mcsamples.py:2547-2551).
* `SampleRanges.refused_fails`: **C268 fails**: a call of `setRanges` that is refused has changed ranges and has not marked the statistics as out of date (mcsamples.py:295-305): the lower limit of the range refused is stored, and of a list with one range too many all the others are.
* `SampleRanges.at_once_fails`: **C268 fails**: `getUpper` right after `setRanges` gives the limit from before, and `None` if nothing was computed yet (mcsamples.py:305, 2078-2080): the attributes of the parameter are set only when the statistics are computed.
* `SampleRanges.words_fails`: **C268 fails**: a line of limits that is not two words, such as `0,1`, is left out without an error (mcsamples.py:417-419).
* `SampleRanges.removed_fails`: **C268 fails**: limits of the settings stay when the settings no longer give them (mcsamples.py:419): they are written into the ranges of the chain.
* `SaveChains.stale_files_fails`: **C238 fails**: chain files of an earlier save with more chains stay in the directory and are read as further chains of the new save (mcsamples.py:2429-2430 only writes the files of its own chains; chains.py:99-109 lists all files of the root)
* `SaveChains.order_fails`: **C238 fails**: the chains are read in the order of `os.listdir`, which is arbitrary, so that chain numbers (and options like a chain to leave out that count the chains loaded) need not refer to the chains saved under these numbers (chains.py:99-109 does not sort)
* `SaveChains.no_likelihoods_fails`: **C238 fails**: samples without likelihoods cannot be saved as separate chains (chains.py:1471 slices `None`), although `saveAsText` writes zeros for them
* `SaveChains.empty_chain_fails`: **C238 fails**: if one of the chains has no sample above the limit, the filtered chains cannot be saved (chains.py:1470 makes a sample object without rows, of which line 995 takes the largest weight; settings_planck_2018.py:124-126)
* `SaveChains.single_array_fails`: **C238 fails**: samples made from one array cannot be saved with `saveChainsAsText` (mcsamples.py:2425-2426 asks for separate chains, chains.py:1466-1467 refuses)
* `SaveChains.zero_weights_fails`: **C238 fails**: samples of weight zero are left out when combined chains are saved (chains.py:1470-1471 uses the default smallest weight ratio 1e-30)
* `Scatter.opacityIn2d_fails`: **C216 fails**: `plot_2d_scatter(..., alpha_samples=True)` always ends in an `IndexError`, because the values of a third parameter are taken even when a fixed colour is given (plots.py:2808)
* `Scatter.shortColorsOk_fails`: **C216 fails**: three roots and one comparison colour give an `IndexError` (plots.py:3128), although one alpha and one marker would do
* `Scatter.anyNumberOfBands_fails`: **C216 fails**: four bands with the default opacities are an `IndexError` (plots.py:1322), since only three are given
* `Scatter.extensionKept_fails`: **C216 fails**: the tag is added after the extension (plots.py:3225-3226), so `export('fig.pdf', tag='v2')` asks for the type `pdf_v2`
* `Scatter.defaultExtension_fails`: **C216 fails**: a dot in the directory suppresses the default extension (plots.py:3227), as in `export('../plots/fig')`
* `Scatter.savedInDirectory_fails`: **C216 fails**: the directory is ignored when the name has a directory of its own (plots.py:3229): `export('a/fig.pdf', adir='out')` writes `a/fig.pdf`
* `Scatter.namedAfterScript_fails`: **C216 fails**: `.py` is removed wherever it occurs and any other dot keeps the default extension away (plots.py:3224-3228): the script `fig.pyramid.py` exports to `figramid.pdf`, and `fig_v1.2.py` to `fig_v1.2`
* `Scripts.peek_index_fails`: The number of the chain is only used when another argument follows: chainPeek.py:19 counts one too many.
* `Scripts.peek_unknown_fails`: For a name that is not there the values of the likelihood are printed: `numberOfName` gives -1 (chainPeek.py:24).
* `Scripts.covscale_usage_fails`: Without factors there is an error in place of the explanation: covscale.py:6 counts one too few.
* `Scripts.covscale_zip_fails`: With fewer factors than parameters the others are silently not scaled (covscale.py:23).
* `Scripts.covscale_one_fails`: A file with one parameter is read as a number, which has no rows (covmat.py:39, 60).
* `Scripts.latex_unknown_fails`: A parameter that the file does not have is an error when printed: `None` has no width (makeLatex.py:22-23, 56-62).
* `Scripts.snippet_unknown_fails`: For such a parameter an existing snippet is emptied before the error (makeLatex.py:34-35).
* `Scripts.snippet_dot_fails`: What follows a dot in the name of the chain is left out of the names of snippets: those of `base_nnu3.046` replace those of `base_nnu3.15` (makeLatex.py:29).
* `Scripts.written_here_fails`: A file name without directory is never written: there is no directory with an empty name, and none can be made (makeParamCompare.py:97).
* `Scripts.directory_made_fails`: A directory that does not exist is not made, only the one it is in (makeParamCompare.py:97).
* `Scripts.extension_added_fails`: It is not if the directory has a dot (makeParamCompare.py:95).
* `Scripts.own_values_fails`: With several parameters each line has the values of all of them (makeParamCompare.py:86).
* `Scripts.all_shown_fails`: Without a grid, which is optional, no job is shown (runningJobs.py:19, 24).
* `Scripts.no_jobs_fails`: When there is no list of jobs there is an error: an empty list cannot be taken apart (runningJobs.py:21-22, jobqueue.py:329-331).
* `Scripts.same_data_fails`: Importance runs are found by names in which data have another order (addGridBatch.py:22), and kept when the item with the same data has them so.
* `Scripts.no_grid_fails`: A directory that is no grid is added as `None`, and everything fails (addGridBatch.py:15-18).
* `Scripts.read_here_fails`: A root without directory fails: `os.listdir('')` does (chainDumpPlot.py:23, 27).
* `Settings.boolList_fails`: **C195** inifile.py:265: `bool_list` converts the words with `bool`, for which any word is true: `T F T` is read as all true.
* `Settings.saved_list_fails`: **C195** inifile.py:145-150, 228-232: lists and arrays are written with brackets, `contours=[0.68 0.95]`, and this can not be read.
* `Settings.array_setting_fails`: **C195** inifile.py:199, 348-351: only lists and tuples are recognised; an array of contours is compared with `""` or read from its text with brackets, and either is an error.
* `Settings.effective_fails`: **C195** mcsamples.py:195, 343-399: the setting `use_effective_samples_2D` of analysis_defaults.ini is never read.
* `Settings.caller_fails`: **C195** mcsamples.py:213-216: with the argument `ignore_rows` the dictionary of settings of the caller is changed, so that it also cuts the next samples made with it.
* `Settings.num_contours_fails`: **C195** mcsamples.py:381-385: `num_contours` and `contour1` in the settings have no effect when the file has `contours`, as the default one does.
* `Singles.zero_weight_fails`: **C129**: a row of weight zero is chosen when the number drawn is zero, which the generator can return.
* `Singles.factor_below_one_fails`: **C129**: with a factor below one the chosen rows are no longer in proportion to the weights: every row with weight above the factor times the heaviest is always chosen.
* `Singles.no_likelihood_fails`: **C129**: without likelihoods the array can be made but not the file.
* `Singles.thin_rows_fails`: **C129**: the parameters written by `writeThinData` are those of the first rows, whatever the indices: they do not depend on the rows selected.
* `Singles.thin_line_fails`: **C129**: no line end is ever written, so the rows of `writeThinData` run together in one line.
* `Singles.thin_separator_fails`: **C129**: without cooling the weight and the likelihood are not separated: the text is not a number.
* `SinglesSplit.other_weights_fails`: **C131**: with weights other than the stored ones the parts are not equal: the total of the stored weights is used. Here the weights double and the first part holds an eighth.
* `SinglesSplit.split_heavy_fails`: **C131**: if the first row holds the `n`-th part of the weight or more, its part is empty and the convergence tests stop with an `IndexError`.
* `SinglesSplit.pairs_tie_fails`: **C133**: of pairs with the same strength only one is ever listed, however many plots are asked for: here all three pairs have correlation one half.
* `SinglesSplit.pairs_unset_fails`: **C133**: the pairs cannot be found before the correlation matrix has been computed.
* `Smooth.short_fails`: Data shorter than the window of 200 samples give 200 samples, which do not fit into the covariance. (smoothing.py:10-11, 18)
* `StatCache.marge_stale_fails`: **C207 fails**: `getMargeStats`, `getTable`, `getLatex` and `getInlineLatex` after `filter`, re-weighting or `setRanges` give the limits of the samples before the change, when limits had been asked for before: `_setDensitiesandMarge1D` returns at once if `done_1Dbins` and does not look at `needs_update` (mcsamples.py:2206).
* `StatCache.marge_new_parameter_fails`: **C207 fails**: a parameter added by `addDerived` after limits were asked for has no limits in `getMargeStats`, so `getTable` and `getInlineLatex` stop with an `AttributeError` (mcsamples.py:2206, types.py:763).
* `StatCache.like_stale_fails`: **C207 fails**: `getLikeStats` after `filter` or re-weighting gives the best fit and the limits of the samples before the change (`self.likeStats or …` without a look at `needs_update`, mcsamples.py:2134).
* `StatCache.covmat_fails`: **C207 fails**: `getCovMat` and `writeCovMatrix` right after `filter`, re-weighting or `addDerived` stop with a `TypeError`: they use `self.fullcov`, which is `None` then, and not `getCov()` (mcsamples.py:581).
* `StatCache.covmat_columns_fails`: **C207 fails**: with a derived parameter before a sampled one `getCovMat` takes the first columns, not the sampled ones (mcsamples.py:580-582).
* `StatCache.refused_fails`: **C207 fails**: `addDerived` with a range and a name that exists raises `ValueError` after it has replaced the range of the existing parameter (mcsamples.py:2325-2327): from the next update on all densities of that parameter are cut at the new limits.
* `StatCache.returned_object_fails`: **C207 fails**: the `MargeStats` object returned earlier changes when the samples are filtered and limits are asked for again: it holds the list of parameters of the samples (`m.names = self.paramNames.names`, mcsamples.py:2118; likewise `getLikeStats`, mcsamples.py:2023), so results before and after a cut cannot be compared.
* `Stats.varList_where_fails`: `var` of a list ignores `where`: with the last sample excluded the variance of parameter 0 is 1, but the list version still returns the variance of all samples
* `SubmitJob.own_log_fails`: **C213 fails**: the log is named after the last part of the path (jobqueue.py:296-297), so runs of the same name in two grids, put in one job, write to one file.
* `SubmitJob.no_answer_fails`: **C213 fails**: under python 3 no output is the text `b''` (jobqueue.py:310-312), so the test for no output is never true and the job is filed under that id.
* `SubmitJob.id_printed_fails`: **C213 fails**: for PBS the id is `b'123.server\n'` with quotes and escapes, so jobs can never be matched with the queue or cancelled.
* `SubmitJob.error_first_fails`: **C213 fails**: the index is read only after the job is submitted (jobqueue.py:309-321); if it cannot be read the job runs but is not known.
* `Table.tableRows_empty_fails`: a table of no parameters, or with no columns, cannot be made
* `Table.missing_value_fails`: a parameter without best fit and limits leaves its row a cell short
* `Table.mixed_results_fails`: results with and without best fits: the shorter last row has the wrong number of cells
* `Table.bestFit_fails`: tables cannot be made from best fits, though documented
* `Table.numFormatter_fails`: the option for another number formatter has no effect
* `TablePng.relative_fails`: **C262 fails**: with a name relative to the working directory the picture is written in the directory of temporary files; the file that is named is not written, and what was in it before is returned, and removed, as the picture (types.py:433, 441, 446-447, 454-457)
* `TablePng.no_latex_fails`: **C262 fails**: if a program is missing or fails there is no error: the name of a file is returned that was not written, or, with `bytesIO`, an older file is returned as the picture (types.py:437-439, 454-461)
* `TexTable.raw_sigma_fails`: With reference results and neither kind of shift chosen, the raw string of types.py:817 has two backslashes before `sigma`: LaTeX ends the row there.
* `TexTable.comma_fails`: For independent data only, the shift starts with a comma (types.py:814).
* `TexTable.label_fails`: Percentages are rounded to whole numbers (types.py:745): limits of 99.7% are called 100% limits.
* `TexTable.mirror_fails`: The number of figures is chosen from the value with its sign (types.py:100-105): `25 ± 12.3` is printed as `25 ± 10`, its negative as `-25 ± 12`.
* `TexTable.title_amp_fails`: Only underscores of titles are escaped (types.py:22-23): a title with an ampersand has two cells.
* `TexTable.one_result_fails`: Results can be given as a list only, although the documentation says that one object will do (types.py:272-273, 295, 305).
* `TexTable.cline_fails`: In tables with several columns of parameters the rule below the titles ends after the first (types.py:257-258).
* `TicksDefects.shift_fails`: **C156** Without pruning, ticks are moved to round numbers without looking at the ends of the axis: on an axis from one to five one of the two ticks is at zero.
* `TicksDefects.shift_adds_fails`: **C156** Ticks that include a round number are moved all the same, if there is another round number near: 20, 28, 36 become 22, 30, 38. Shifts add up: 19, 27, 35 are moved by one to reach 20, and by another two to reach 30.
* `TicksDefects.last_resort_fails`: **C156** If nothing fits, two ticks that do not fit are returned: on an axis from minus one to minus nine tenths, labels overlap the ends of the axis.
* `TicksDefects.zero_bonus_fails`: **C156** Ticks with a zero among them are not preferred: the code looks for zero among the steps, where it never is.
