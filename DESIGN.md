# Design: a Lean 4 model of SAMPLE

`/repo` (LIMUNIMI/SAMPLE) is modelled as text; it is never run. `properties.jsonl` lists the
properties, `MANIFEST.json` maps them to theorems, `seeded/LOG.jsonl` records mutation experiments.

## Layout

`lean/Verif/<Area>/Model.lean` mirrors the Python code function by function (each definition cites
file and lines); `Spec.lean` holds small independent specifications; `Lemmas.lean` holds helper
lemmas; `Props.lean` holds the property theorems, each followed by an `example` that a concrete,
non-trivial case meets its hypotheses.

## Trusted base

* Lean's kernel (4.33.0) and Mathlib's definitions used in the statements.
* Axioms: only `propext`, `Classical.choice`, `Quot.sound`. No axioms of our own, no `sorry`,
  no `native_decide`, no `bv_decide`.
* The correspondence between the Python text and the model definitions (checked by reading; the
  citations in the comments make this auditable).
* Floating point: in the theorems outside `Float/` numbers are exact (an ordered field or the reals),
  without rounding, overflow and underflow. `Float/` models some of the functions again with every
  operation rounded: the laws of rounding (`Arith`) are proved for IEEE 754 rounding to nearest, ties to
  even, with gradual underflow, of any precision (`Float/Ieee`, doubles are an instance); overflow is
  not modelled there. NaN is modelled explicitly (as `Option`) where the code relies on it
  (merged tracks, parameter matrix).
* NumPy / SciPy / scikit-learn calls are replaced by their documented mathematical meaning:
  `np.argsort` = any permutation that sorts (ties in any order), `LinearRegression` = the ordinary
  least-squares line, `curve_fit`/`least_squares` and skopt are opaque, FFT is opaque except where said.
* Process pools: a pool is any schedule that eventually runs each submitted task once.

## Per property: what is modelled, how it is proved

| id | model | proof |
|----|-------|-------|
| C01 | `SineTracker.__call__`, `reset` as `step` over an ordered field; sort order = any valid argsort | invariant by induction over frames |
| C02 | same state; three parallel lists kept separate as in the code | invariant by induction over frames |
| C03 | same; samples at frame k collected over all tracks as a list | sub-permutation invariant, loop invariant for the greedy loop |
| C04 | same | chain invariant by induction |
| C05 | greedy loop of `__call__` and `min_key` | loop invariant: matching without blocking pairs |
| C06 | `min_sine_len`, `track_ok`, `all_tracks_` | invariant + ceil arithmetic |
| C07 | deactivation loop in reversed index order, activation loop | list induction; equality with filter/take specification |
| C08 | `SinusoidalModel.fit` with tracker state, storage and `w_` as object state; FFT and sort as parameters | equality of the resulting objects for any two prior states; refit theorem |
| C09 | `ModalTracker.track_ok` with OLS | algebra of OLS; minimiser characterisation |
| C10 | same | reversal of sums |
| C11 | `ModalTracker.deactivate` with NaN padding | list algebra on absolute frames, invariant over histories |
| C12 | same + `min_key` | argmin specification |
| C13 | `all_tracks_`, `strip_n` | filter characterisation, reverse onset in forward time |
| C14 | `peak_detect` by slices | list index reasoning |
| C15 | `peak_refine` | ordered-field algebra |
| C16 | `np.interp` on the integer grid | convexity |
| C17 | `dft` buffer construction | index arithmetic |
| C18 | `overlapping_windows`, `n_windows` | floor-division arithmetic |
| C19 | `pad_input` | index arithmetic; the "centred" clause of the docstring is off by one for odd sizes (finding) |
| C20 | `_preprocess_track`, with `time_frames` of C18/C19 | list induction, index arithmetic and field algebra |
| C21 | `_fit_track`, `db2a` over the reals | `Real.log`/`Real.exp` identities |
| C22 | cleaning of the matrix, entries extended by NaN and infinities | filter characterisation |
| C23 | `modal_energy` | Mathlib improper integral |
| C24 | `predict`, `mode_argsort_` | permutation + sortedness; composed with C25 |
| C25 | `additive_synth` | finite sums over lists |
| C26 | `sdt_params_` | list lemmas; agreement with `predict`; empty model = error |
| C27 | `hinge_function`, `HingeRegression.predict` | order algebra |
| C28 | `_default_bounds`, `_default_coeffs_init`, entry checks of `least_squares` | case analysis |
| C29 | `Optimize/Model.lean`: `remapN`, `remapW`, `remapH`, decorators; `SAMPLE(**kwargs)` by the sizes its sinusoidal model gets | step specifications composed; floor arithmetic |
| C30 | `Optimizer.kwargs`, `loss`, `gpMinimize`; clone/set_params/fit/predict/loss and skopt arbitrary functions | case analysis; dictionary lemmas; fold lemma for the peak |
| C31 | `Utils/DeprecatedModel.lean`: `Dep.loop`, `decorate`, stacks of the library | induction over the stack; the prefix loop is a stack |
| C32 | `OptionalStorage` as a state machine | induction over operations |
| C33 | `default_property` as a state machine with object identities (defaults are built on assignment) | induction over programs |
| C34 | `Out/Model.lean`: bodies as sequences of NumPy calls over a memory of arrays, `numpyOut`; `Out/Functions.lean`: the bodies; `Out/FormulaSpec.lean`: documented formulas | reading-order check proved sound (`computes_of_ok`) by induction over bodies; formula per function; shift invariance of the variance for rms |
| C35 | `Utils/WarningsModel.lean`: state of `warnings` with filters, destination, records | case analysis; induction over histories |
| C36 | `fillDefaults`, `defaultKws` on a heap of dictionaries | induction over defaults; induction over histories |
| C37 | `normalizeV` with `Variants`, bodies in `Out/Functions.lean` | extremes of lists; sums |
| C38 | `a2dbCall`, `db2aCall` on the bodies | log/exp identities |
| C39 | `Dsp/BisectModel.lean` | bracket invariant by induction + intermediate value theorem |
| C40 | `Verif/Dsp/WindowsModel.lean`: `nWindows`, `windows` (view of memory cells, `none` outside), `stridedConv`, `stridedConvComplex` | spec `conv` as a sum over ℤ-indexed samples; floor-division lemma, list induction for the dot product |
| C41 | `Verif/Dsp/OnsetModel.lean`: slices, `out=` stores, uninitialised arrays as arguments, NaN as `none` | spec: Dixon's `IsOnset` and recursive threshold; entry-wise lemmas for slices and stores; independence: arrays equal from index 1 on |
| C42 | `fluxRow`, `fluxTf` | list sums |
| C43 | `Verif/Beat/BeatModel.lean`: the graph evaluated on scalars and arrays with broadcasting | spec `sumAt`; evaluation lemmas per node; complex modulus |
| C44 | `Beat.fm`, `expDecay`, `modalBeat` | `Im(z'/z)` and the derivative of the phase |
| C45 | `Beat.initialPhase`, `cumtrapz`, `Beat.x` | polar form; first term of the trapezoids |
| C46 | `Verif/Beat/RegressionModel.lean`: `sortParams` | case analysis |
| C47 | `Verif/Beat/DecisionModel.lean` | case analysis |
| C48 | `Psycho/ScaleModel.lean`: `Variants` of the bodies | log/exp/sinh identities |
| C49 | `Psycho/ScaleModel.lean` | monotonicity of log, arctan, arsinh, quotients |
| C50 | `Verif/Psycho/MelModel.lean`: `interp3` (`np.interp` on three points), `linspace`, `melFilterbank` | spec `IsTri`, `IsBank` in `MelSpec.lean`; telescoping sum of ramps |
| C51 | `Verif/Psycho/GammatoneModel.lean`: `Gammatone` with its properties; `envelope` is the formula that C34 proves of the code | `t < e^(t-1)` gives strict monotony on both sides of the peak; `C51_shape` gives the shape around it |
| C52 | `Verif/Psycho/BankModel.lean`: `convolveFull`, `geometry`, `convolveStrided`, `convolveAnalytic` | spec `conv`; slice and store lemmas of C40/C41; floor-division arithmetic of the offsets |
| C53 | `Eval/MetricsModel.lean`: `lp_distance` with kinds of arrays and exponents | Minkowski inequality in Mathlib; `PiLp` |
| C54 | `multiScale`: pool = any order in which tasks finish | induction over the schedule and over the scales |
| C55 | `Eval/RandomModel.lean`: the generator is an arbitrary state with lawful draws | monotonicity of the Bark scale; interval arithmetic; induction over the size |
| C56 | `_progress_starmap`, `sample_training_context`; pool = any schedule | invariant over schedules |
| C57 | `_wrap_as_managed` with an arbitrary body and a heap of storages | induction over keys, case analysis |
| C58 | `Widgets/TrimModel.lean`: the load tab as a state machine; onset detection and the shown times are arbitrary functions | invariant by induction over operations; sorted list of onsets |
| C59 | `Widgets/LockModel.lean`: callbacks with program counters, any interleaving | invariant over histories; rank decreases with each own step |
| C60 | `Widgets/ParseModel.lean`: floats = numbers, NaN, infinities; `float(s)` arbitrary | case analysis |
| C61 | `nextPowerOf2`, `windowLoop` with fuel; `get_window` arbitrary | bit length; three rounds |
| C62 | `Scripts/VersionModel.lean`: `_version_compare` on `zip_longest`, both changelog scripts | total order, insertion sort, split/join |
| C63 | `SinusoidalModel.fit` composed from all the above | composition of C03, C14, C15, C17, C18, C19, C32 |
| C64 | keyword split of `SAMPLE.fit` on dictionaries | dictionary algebra |
| C65 | `HingeRegression.fit` with an arbitrary solver; `_track_preprocess_and_fit` | case analysis on the bounds; affine invariance of the least-squares slope; invariant "made of accepted parts" over tracker runs |
| C66 | `Callback` state machine with all bars ever made | invariant by induction over histories |
| C68 | `OptionalStorage.append` line by line, arbitrary interleavings | invariant over schedules; witnesses by evaluation |
| C69 | whole `SAMPLE.fit` | composition of C20-C22, C28, C56, C63, C65 |
| C70 | `Variants.register`, `call` | induction over registrations |
| C71 | `addKeywordArg` on lists of parameters | pairwise lemmas on insertion |
| C72 | `OpCache.getattr` | invariant by induction over reads |
| C73 | `stft2melFrame`, `stft2melComplex`, `stft2mel` | partition of unity (C50), sums exchanged; injectivity of powers |
| C74 | `t60Loop`, `Gammatone.t60`, `Gammatone.irSize` | C39 (bisection) and C51 (monotony), induction over the restarts; explicit bounds for e and log 10 |
| C75 | `Verif/Psycho/FilterbankModel.lean`: `centres` | order reasoning; the ERB-rate scale in closed form |
| C76 | `precompute`, `checkAnalytic`, `postOf`, `bankOf`, `filterWith`, `hilbertOut`, `cochleagram`; `scipy.signal.hilbert` is an arbitrary function | C52 and C74; commutativity of convolution |
| C77 | `trapezoids`, `Beat.x` | lifting of the phase; trapezoid error by Taylor bounds, induction over the axis |
| C78 | `residuals`, `ssr`, `disambiguate`, `fitDual`; loss functions and clipping arbitrary, `<` of values that are not finite arbitrary | symmetry of the modulus; injectivity of the Mel scale |
| C79 | `defaultInit`, `defaultBounds`, `feasible`, `fitBeat`; regressor, autocorrelogram peaks, optimiser arbitrary | extremes of lists; order reasoning |
| C80 | `fitWith` (generalises `Sample.fit`), `beatFitTrack`, `predictBeats` | C22, C24, C56 composed |
| C81 | `linLogLoss`, `multiscaleLoss`; STFT and window arbitrary | C53 twice, sums over scales |
| C82 | `CochLoss` on top of the cochleagram of C76; `hilbert` = any function that keeps the size | sizes depend only on the size of the signal; C53, C76 |
| C83 | `BeatsGen.audio`, `addNoise` | C25, C55 |
| C84 | `Widgets/ApplyModel.lean`: the table of 22 settings, post-processing functions, `apply_cbk` on file, entries and parameters | dictionary algebra; keys preserved |
| C85 | same | fixed points of parsers and post-processing |
| C86 | `Scripts/EvalModel`: files as tables or unreadable, a run as a list of file operations, an interruption as a prefix of them with the last write torn; pool = any order | Invariant on files over histories (`Reach`); the results list is the list of test values; independence from the schedule by `Perm` |
| C87 | as C86 | Invariant of the loop: readable checkpoints have numbers up to the last one; later checkpoints keep rows; witnesses for the histories that lose work |
| C88 | `Scripts/BenchModel`: columns as lists; a run as a list of extensions, an interruption as a prefix with the last extension cut | Invariant `GoodData` over histories (`BenchReach`); columns are prefixes of those of the whole run; arithmetic of `take (minLen / n * n)` |
| C89 | as C88, rows of the table; means of groups | Field arithmetic, induction over the other methods |
| C90 | `Scripts/NbModel`: regular expressions as predicates on texts, `splitlines`, `join`, filters, formatter as arbitrary function | Decomposition of lines into indentation and rest; induction over texts and cells |
| C91 | `Scripts/ExampleModel`: integers of a type, division that may be by zero, mean of frames | Field arithmetic, bounds on sums |
| C92 | `Scripts/ExampleModel`: bounds from onsets, Python slices; detection as arbitrary function | Minimum and maximum of filtered lists, `C58_auto` |
| C93 | `Scripts/ExampleModel`: maximum of absolute values, gain | Induction over the list, field arithmetic |
| C94 | `Dsp/SpectrumModel`: transforms of `numpy.fft` as their defining sums over ℂ | Orthogonality of the roots of unity; folding of the two-sided sum; triangle inequality |
| C95 | `Dsp/SpectrumModel`: bins by `ceil`, slices and assignment of `Verif/Np`; `scipy.signal.lombscargle` as arbitrary function | Arithmetic of `ceil` and slices; `C94` for the peak |
| C96 | `Dsp/SpectrumModel`: linear regression with one feature by its closed form; any estimator as a function | Normal equations, decomposition of the sum of squares |
| C97 | `Widgets/SessionModel`: state shared by the tabs, events; prediction and parameters as arbitrary functions that may raise | Invariant of the cached resynthesis over histories |
| C98 | `Widgets/ProgressModel`: threads in single steps with a lock; throttling as arbitrary choice | Invariant with the order of acquisition as a ghost; induction over calls |
| C99 | `Widgets/LaunchModel`: files as missing, readable or unreadable; children as lists of steps, a kill as a prefix of them; the loop over children | Induction over children; at most one message per child |
| C100 | `Learn/EstModel`: estimators as objects in a memory with identity; default properties, `get_params`, `set_params`, `clone`; the classes of the package as a table | Ownership of objects as an invariant of programs (separation); lookups as a relation; induction over nested names |
| C101 | `Learn/EstModel` (factory), `Widgets/FactoryProps` (call in the analysis), with C84 | Correspondence between new objects and the tables; names by computation |
| C102 | `Scripts/FiguresModel`: the three transforms over ℂ with division errors; `fourier` (spec) is the Lebesgue integral | Integral of a decaying exponential; linearity; additive synthesis of `Sample/SynthModel` |
| C103 | `Scripts/FiguresModel`: slices and assignments to uninitialised arrays | Pointwise characterisation; least index between two points; induction for parity |
| C104 | `Out/HtmlModel`: recursion over parameters, regular expression, docstring groups | A reader of tokens as a separate machine; mutual structural induction; induction over lines |
| C105 | `Scripts/ReportModel`: comparisons, errors, file of results | Case analysis over an ordered field |
| C106 | `Scripts/ReportModel`: nearest track, classes, table of importances in uninitialised memory | Invariant of the writing loop; invariant of `argmin` |
| C107 | `Out/PlotsModel`: time axes of the two plots | Field identities against `frameTime` of `Sample/Model`; greatest element |
| C108 | `Out/PlotsModel`: order of calls, axes, rate, label, clipping | List indices; greatest element |
| C109 | `Widgets/PlayerModel`: threads with stacks of frames, non-reentrant lock, log of the mixer | Invariant over event lists; the mixer as a separate machine; measure on the remaining steps |
| C110 | `Utils/AttrModel`: attribute lookup with fuel | Induction over filters and names; induction over the fuel for the endless recursion |
| C111 | `Widgets/TkModel`: mutual recursion over trees | Mutual structural induction; positions as paths in lexicographic order |
| C112 | `Widgets/TkModel`: nested blocks as functions of the state of the modules | Induction over the names with the block generalised |
| C113 | `Widgets/TkModel`: lookup with the cache of classes and their identities | Invariant of the cache over histories |
| C114 | `Widgets/TkModel`: loops over indices | Induction over indices |
| C115 | `Scripts/LogspaceModel`: over ℝ, `none` for NaN and infinite values | Real powers; list indices |
| C116 | `Widgets/TkModel`: store of attributes, class dictionary | Induction over the history |
| C117 | `Beat/ResidualModel`: `residualFn` with both shapes of times; uses `Sms.interp` and `octetSum` | Interpolation on a uniform grid; Lipschitz bound of the modulus; sum of squares around the mean |
| C118 | `Widgets/ExportModel`: callbacks as steps of a state of names and files | Induction over the history |
| C119 | `Widgets/ExportModel`: writing is a list of pieces with a fault after any number of them | Case analysis; prefixes |
| C120 | `Paths/Model`: `os.path.splitext`, `basename`, `dirname`, `join` (POSIX) on lists of characters | Specification of `splitext` with uniqueness |
| C121 | `Paths/Model`: `UserDir`, `UserFile`, `prepareFolders` | Case analysis on the last slash |
| C122 | `Tracker/Model`, `Tracker/ModalModel`; partials, runs and segments in `Tracker/SeparatedSpec` | Invariant: active tracks are the open runs, finished tracks are the closed ones; every match is the own peak by induction on the rank of `C05` |
| C123 | Same model; `Banded`, `WholeOf`, `Done` in `Tracker/PauseSpec` | Induction over the finished runs in order of their ends: one merged track per partial; averages stay in the band |
| C124 | `Sms/SpectrumModel`: transform as its defining sum, `np.unwrap` entry by entry, machine precision and tolerance; `centredBin` in `Sms/SpectrumSpec` | Shift of the sum by whole turns (buffer of `C17`), each correction of `unwrap` is a whole number of turns that leaves a step of at most half a turn |
| C125 | `SinusoidalModel.fit` with the spectrum of `C124`; sounds and refined peaks in `Sms/SimilarSpec` | Frame `l` is the earliest frame times a power of `c`; the refined peak is shifted in level only; `C122` for the tracker, least squares of points on a line for acceptance |
| C126 | `Sample/FitModel.fit` with the spectrum of `C124` and the regressor of `Hinge/Model`; `SolverMin`, `earliestTime` in `Sample/DecaySpec` | `C125` for the tracks; their points lie on a line, which a hinge within the bounds meets with zero cost; a hinge through three points of a falling line is the line |
| C127 | `Fitted.predict` of `Sample/SynthModel`, then `Sample/FitModel.fit` with the spectrum of `C124` | `C24` and `C25` for the samples; whole periods per hop make the sound self-similar; `C126` |
| C128 | `trackParams` of `Sample/FitModel` with the hinge regressor of `Hinge/Model`; any function `solve` with `SolverNear` | the cost of the true line bounds the cost of the result; more than half of the frames lie left of the knee, otherwise the flat piece alone would cost too much; the squares over that piece bound slope and level |
| C129 | `Sms/FitModel.Model.fit` with `spectrum` of `C124`; spec `Sms/LastSpec` (frames in time order and their spectra) | every frame has the peaks of the bins still alive (`time_peaks`); the bins meet `Separated`, so `C122` gives the tracks; least-squares line over the frames in either direction |
| C130 | `Sample/FitModel.fit` with the spectrum of `C124` and the regressor of `Hinge/Model`; spec `Sms/PartialSpec` (`wobble`, `curvature`, `freqSlack`) | the refined peak depends on the three levels with constants 5/4 (height) and 3/curvature (place), so `Partials` implies `Lasting` and `C129` gives the tracks; least-squares lines and means of disturbed tracks; `C128` for each track |
| C131 | `Sample/FitModel.fit`; spec `Sms/DampedSpec` (`frameStart`, `response`, `strength`, `rest`, `everything`) | the bin of a frame is a finite sum of responses (a frame of a damped sinusoid is a multiple of the first; flipped frames conjugate the pole); triangle inequality gives `Partials`; `C130`; symmetry of the response about its centre for `C131_centred` |
| C132 | `Sample/FitModel.fit`; spec `Sms/CosineSpec` (`cosineWindow`, `binPole`, `sideGain`, `spill`, `binSlack`) | sums of roots of unity give the response of the window to an undamped sinusoid exactly (1, kappa, 0); damping changes each term by at most gamma; every bin is a peak, beside a peak or below the threshold; `C131` |
| C133 | `Sms/FitModel.Model.fit`, `tracks`; spec `Tracker/ExtendSpec` (`Extends`, `onward`, `sharedFrames`) | frames inside the common part are equal; the loop of `fit` splits; induction over the further frames: active tracks grow at the end, finished ones stay or are merged into, new entries end at the clock |
| C134 | `Sms/FitModel.Model.fit`, `Sms/SpectrumModel.spectrum`, `Sample/FitModel.fit`; spec `Tracker/RescaleSpec`, `Sms/RescaleSpec`, `Sample/RescaleSpec` | equivariance of every step (`call`, both `deactivate`, `track_ok`) by induction over frames; peaks of the louder spectrum are the same bins, vertices shift; naturality of the pool, of the masks and of the parameter matrix |
| C135 | `Sms/FitModel.Model.fit`, `Sms/WindowModel.timeFrames`, `Sample/FitModel.fit`; spec `Tracker/DelaySpec`, `Sms/DelaySpec`, `Sample/DelaySpec` | frames of the delayed signal = silent frames, then the old frames; a silent frame has no peaks and only advances the clock; every tracker step commutes with the delay; the times of a track shift (forward) or stay (backward) |
| C136 | `Out/TypesModel` (types, casts, `_result_type`, the type of every call of the bodies of `Out/Functions`); spec `Out/TypesSpec` | a call changes no value if it computes in floating point or its values fit its type; then the typed body computes what the body of C34 computes; a floating-point call into another type raises |
| C137 | `Float/Ieee` (rounding), `Float/Basic`, `Float/PeakModel`: refinement with every operation rounded; compared with the exact model of C14, C15 | error analysis operation by operation; Sterbenz; monotone rounding |
| C138 | `Float/NormalizeModel` | monotone rounding; 0, 1 and x/x are exact |
| C139 | `Float/BisectModel` | loop invariant with accumulated rounding error of the midpoints; intermediate value theorem |
| C140 | `Float/HingeModel`; entry checks of `least_squares` as in C28 | monotone rounding; spacing of representable numbers below 1/u |
| C141 | `Float/BeatModel`: every operation rounded; the values of cosine, sine and the frequencies are arguments | monotone rounding; error analysis |
| C142 | `Float/BinModel` | relative error of three roundings; powers of two are exact |
| C143 | `Float/SynthModel`: sums as an inductive relation (any order, grouping, fused operations) | induction over the way of summing; Lipschitz bounds of cosine and exponential |
| C144 | `Float/EnergyModel`; argsort of C24 | relative error of three roundings; exchange argument between two selections |
| C145 | `Psycho/AttrModel`: attributes read with bounded depth, functions read attributes; `Psycho/GammatoneModel` | fixed point at depth five by induction; induction over the history |
| C146 | `distF`, `dfF`, `minSineLenF`, `continueLoopF`, `callF`, `runFromF` (Float/TrackerModel); `GreedyF`, `StepF` (Float/TrackerSpec) | matching proof of C05 with computed distances; monotone rounding and Sterbenz turn them into exact ones; induction over frames; equality of runs by equality of the first least distance |
| C147 | `Numerics`, `modalTrackOkF`, `finishF`, `modalDeactivateF`, `stripNF`, `modalAllTracksF`, `modalFitF` (Float/ModalModel); `FreqDiffF`, `Numeric` (Float/ModalSpec) | the step lemma of C146 is generic in what finishing a track does; invariant over histories; least key with NaN; equality of runs for tracks that arise from the frames |
| C148 | `Libraries`, `normalizedWindowF`, `dftBufferF`, `dftF`, `toPeaksF`, `fitLoopF`, `fitF`, `tracksF` (Float/FitModel); `SpectrumF`, `bufferF`, `PeakAtF` (Float/FitSpec) | error of a frequency from C137 and two roundings; peaks are two bins apart, so frequencies are distinct; the loop is the run of the tracker on these peaks; invariants of C146 and C147 |
| C149 | `BeatLib`, `StartF`, `defaultInitBeatF`, `ampBoundsF`, `freqBoundsF`, `defaultBoundsBeatF`, `feasibleF`, `fitBeatF` (Float/StartModel) | adding d to x changes it if u(|x|+d) < d; going down by the rounded distance to a larger number always changes it (spacing, Sterbenz); a constant frequency gives a lower and an upper bound with nothing strictly between them on one side |
| C150 | `SampleLib`, `residualsF`, `hingeFitF`, `frameTimeF`, `preprocessTrackF`, `fitTrackF`, `trackParamsF`, `fitSampleF` (Float/SampleModel) | error analysis of the time axis (`frameTimeF_err`), less than half a hop, hence strict order; error analysis of the residuals (`C150_search`); C148 for the tracks, C140 for the checks of the optimiser, C147 for means, C22 and C56 for cleaning and schedule |
| C151 | `setParamsD`, `constructD`, `processAll`, `packageDeps`, `packageDeco` (Learn/OldModel); spec `Renaming`, `Inner`, `Modern`, `Today` (Learn/OldLemmas), `packageNames` (Learn/OldProps) | parts have the classes of the default properties (`Reach.typed`, Learn/OldTyped); simulation of `set_params` up to the order of arguments by induction on the fuel (`setParams_sim`, `construct_sim`), then C100 |
| C152 | `zipModes`, `predictModesF`, `PredictF` (Float/PredictModel) | C144 for the selection, C143 for each sample; the modes left out by the triangle inequality; blocks by the relation between times and samples |
| C153 | `RngLib`, `randomPhases`, `additiveSynthKw`, `Fitted.predictKw` (Sample/SeedModel) | numbers of a generator by iteration of its step (`uniform_eq`); C25 for modes with the drawn phases; one ranking for all numbers of modes from `predictArgs_ofModes` |
| C154 | `Br`, `Steps.fit` (trace of states), `Call.run`, `Br.predict`, `Beat.variable` (Beat/StateModel) | cases of one fit (`fit_cases`), induction over the history; meaning of each variable from C43, C44, C45 |
| C155 | `compare`, `drawAll`, `fitAll`, `columnCurves`, `signalCurve`, `timeLabels` (Beat/CompareModel) | C154 for each clone; induction over the dictionary |
| C156 | `modalBeat`, `Beat.am`, `Beat.fm` (Beat/BeatModel), `residuals` (Beat/RegressionModel), `residualsAt` (Beat/ResidualModel) | squared amplitudes and frequencies times squared amplitudes at the frames are sums of powers of four complex numbers; coefficients on at most N points with N zero moments are zero (interpolating polynomial); comparison of the points in the upper half plane and on the real line |
| C157 | `Hinge.fit`, `defaultBounds` (Hinge/Model), `trackParams` (Sample/FitModel); any function `solve` with `SolverIn`/`SolverMin`; spec `Sample/FloorSpec` (`share`, `miss`, `shortage`) | sums of min(i, m) and i min(i, m) in closed form give the least-squares line; the largest distance of a value from its intercept is attained at the first frame or at the knee; a hinge through two points before the knee and one more is determined |
| C158 | `Hr` (attributes), `Steps.fit` (list of states after each assignment, and exception), `Call.run`, `Hr.predict`, `Hr.akq` (Hinge/StateModel) | case distinction on the first function that raises; invariant `Known` by induction over the history |
| C159 | `Obj` (settings, tracker, matrix), `fit` (list of states after each step, and exception), `Op.run`, `Obj.tracks`, `Obj.row`, `Obj.setRow` (Sample/StateModel); the loop is tied to `Sms.fitLoop` | case distinction on the first step that raises (`fit_cases`); invariants by induction over the history; `C22_finite_columns` for the last assignments |
| C160 | `Arr` (shape, entries), `fits`, `exec`, `numpyOut`, `wavefun` (Out/ShapeModel); the bodies are those of Out/Functions | shapes never change (`run_fit`); at every index the run is the run on arrays of one entry (`run_sem`), whose value is known from C34; broadcasting is characterised axis by axis (`C160_fits`, `C160_entry`) |
| C161 | `shownTime`, `readBack`, `retypeF`, `reloads` (Float/TrimModel) on top of `updateVars`, `restore`, `loadCbk` (Widgets/TrimModel) | error bound for a division and a product, then the floor (`readBack_err`); induction over the reloads; the sum of the bounds decreases until nothing changes; `flt_of_small` for powers of two; kernel evaluation for the witness |
| C162 | `windowSizeF`, `hopSizeF`, `noverlapF`, `stepF` (Float/FrameModel), compared with `hopSize` (Optimize/Model) | monotone rounding and truncation; error bound for a difference and a product; `flt_of_small` for fractions of powers of two; the number before an integer and `flt_nearest` for overlaps below one; kernel evaluation for the witnesses |
| C163 | `onsetPosF`, `setAllI`, `onsetIndicesF` (Float/OnsetModel), compared with `onsetIndices` (Dsp/OnsetModel) | a quotient of integers that is not an integer is at least `1 / b` below the next one, which is more than the rounding error (`floor_div_nat`); error bound of the product and the quotient for the range |
| C164 | `twosidesF`, `beatHzF`, `drawnDecayF`, `noiseAmpF`, `sineAmpF`, `ampF` (Float/RandomModel) | monotone rounding for the lower limit and the order; error bounds for the upper limit, the inverse and the sums (`scaled_sum`); the exact difference (Sterbenz) when the limits are near; kernel evaluation for the witness |
| C165 | `melSpectrogram` (Psycho/SpectrogramModel); the transform is any function with `IsStft` | C73 for every column (`frames_scale`), bank of C50; silence is the factor zero |
| C166 | `gfbConvolve`, `strideOf`, `postKw`, `gfbLen`, `IRBank.len` (Psycho/BankCallModel), on `cochleagram` and `precompute` (C76) | cases on the mode and on the result of every step; lookup in an appended list of keywords |
| C167 | `webChannels`, `reshapeRows`, `format`, `webPage` (Out/WebAudioModel) | spec `Piece`; induction on the number of channels (`chunks_flatten`) and on the pieces of the template with the fuel as invariant (`format_text`, `format_field`) |
| C168 | `putSetting`, `addSetting`, `addAll`, `clearAll`, `resetTabs`, `projectSettings` (Widgets/TabModel) | induction on the settings with the dictionary as a prefix; `clear_prefix` for the entries before the spacer; induction on the tabs |
| C169 | `quartile`, `clipLimits`, `clipTo`, `clipFreq`, `clipCells` (Beat/FreqClipModel) | counting in the sorted list; cases of the limits; C78_residuals and injectivity of the Mel scale; a concrete beat of 2 Hz and 1 Hz |
| C170 | `complex2db`, `stft4resynthesis`, `panel`, `tfOf` (Dsp/ComplexDbModel) | laws of logarithms and norms; `List.Forall₂` over rows and entries |
| C171 | `playerOpts`, `labelWidget`, `audioPart`, `showCall`, `showAll` (Out/PlayerModel), `audioWidget` for IPython | cases of the options; induction on the signals, for every first number |
| C172 | `fieldValue`, `formatF`, `formatMsg`, `timeThis` (Out/TimerModel) | induction on the texts of the message with enough fuel; cases of the outcome |
| C173 | `emit`, `say`, `redirect`, `truncate`, `printOrWrite`, `reportPath`, `splitKeep`, `insertOne`, `printReport` (Scripts/WriteModel) | induction on the printed lines for each target; induction on lines for the split text |
| C174 | `Cls.hasCall`, `isCallable`, `call`, `construct`, `nameOf`, `inner` (Utils/NamedModel) | cases of the wrapped object; induction on the wrappings |
| C175 | `rootColor`, `mergeKwargs`, `commonMap`, `TkClass.mappings`, `configOf`, `restyle`, `restyleAll` (Widgets/StyleModel) | cases; induction on the classes and mappings |

## Modelled and not modelled, by file

Computed from the citations in the comments of definitions (module headers, lemma and property files do
not count). A function is in the second column if the body is cited wholly, in the third if partly, in the
last if no definition cites it. A citation says which text was read for a definition; simplifications are
in the comment of that definition. Constructors that only store arguments, and decorators or properties
described in a module header only, appear in the last column although other definitions depend on
their meaning; that part of the correspondence rests on reading alone.

| file | functions cited wholly | partly | not cited |
|------|------------------------|--------|-----------|
| `sample/_training.py` | 4 | - | `FitArgs.__init__` |
| `sample/beatsdrop/__init__.py` | 12 | - | - |
| `sample/beatsdrop/decision.py` | 9 | - | `BeatDecisor.__init__` |
| `sample/beatsdrop/regression.py` | 15 | `DualBeatRegression._residual_fn` | `_get_notnone_attr`, `DualBeatRegression.__init__`, `DualBeatRegression.freq_loss`, `DualBeatRegression.amp_loss` |
| `sample/beatsdrop/sample.py` | 6 | - | - |
| `sample/evaluation/metrics.py` | 9 | - | - |
| `sample/evaluation/random.py` | 11 | - | - |
| `sample/gui.py` | 0 | `run` | `launch` |
| `sample/hinge.py` | 13 | - | - |
| `sample/ipython.py` | 12 | `CollapsibleModelParams.__init__` | - |
| `sample/optimize.py` | 10 | - | `SAMPLEOptimizer.model` |
| `sample/plots.py` | 3 | `sine_tracking_2d`, `sine_tracking_3d`, `_stft4resynthesis`, `resynthesis` | - |
| `sample/psycho.py` | 49 | `GammatoneFilterbank.__init__` | `GammatoneFilterbank.__iter__` |
| `sample/sample.py` | 22 | - | `_decorate_sample` |
| `sample/sms/dsp.py` | 4 | - | - |
| `sample/sms/mm.py` | 11 | - | `_decorate_modal_model` |
| `sample/sms/sm.py` | 21 | - | `SineTracker.n_active_tracks`, `_decorate_sinusoidal_model`, `SinusoidalModel.frame_rate`, `SinusoidalModel.fs`, `SinusoidalModel.h`, `SinusoidalModel.dft_frames` |
| `sample/utils/__init__.py` | 9 | `add_keyword_arg`, `function_with_variants`, `function_variant`, `numpy_out`, `deprecated_argument`, `warnings_simplefilter` | `comma_join_quote`, `numpy_id` |
| `sample/utils/dsp.py` | 26 | `local_maxima` | - |
| `sample/utils/learn.py` | 11 | - | `_DefaultProperty.DocumentedCallable.__init__`, `_DefaultProperty.DocumentedCallable.__call__`, `_DefaultProperty.DocumentedCallable.__doc__`, `default_property` |
| `sample/widgets/analysis.py` | 6 | `AnalysisTab.__init__`, `AnalysisTab.update_plot`, `AnalysisTab.play_cbk` | - |
| `sample/widgets/audio.py` | 1 | - | `TempAudio.__init__`, `TempAudio.close_pygame`, `TempAudio.open_pygame`, `TempAudio.__del__` |
| `sample/widgets/audioload.py` | 5 | `AudioLoadTab.__init__`, `AudioLoadTab.play_cbk`, `AudioLoadTab.set_trim`, `AudioLoadTab.update_plot` | - |
| `sample/widgets/main.py` | 4 | - | `SAMPLERoot.__init__`, `SAMPLEGUI.quit`, `SAMPLEGUI.__del__`, `SAMPLESplashScreen.__init__` |
| `sample/widgets/pyplot.py` | 1 | `PyplotFrame.__init__` | - |
| `sample/widgets/responsive.py` | 3 | - | `ResponsiveMixin.grid` |
| `sample/widgets/sample.py` | 5 | - | `_GUIFitArgs.__init__` |
| `sample/widgets/settings.py` | 15 | `SettingsTab.Setting.__init__`, `SettingsTab.__init__` | - |
| `sample/widgets/userfiles.py` | 10 | - | `UserDir.UserFile.exists`, `UserDir.UserFile.delete`, `UserDir.UserFile.load_json`, `UserDir.UserFile.load_pickled`, `UserDir.user_file`, `UserTtkTheme.__init__`, `UserTtkTheme.default` |
| `sample/widgets/utils.py` | 4 | `RootProperty.__init__` | `get_root`, `root_style`, `DataOnRootMixin.log_root_properties`, `ScrollableFrame.__init__` |
| `scripts/beatsdrop/evaluation.py` | 10 | `run_tests`, `statistical_tests`, `decision_report`, `fft_report`, `main` | `ArgParser.__init__`, `ArgParser.custom_parse_args`, `setup_logging` |
| `scripts/beatsdrop/example.py` | 5 | `load_audio`, `resynth_audio` | `ArgParser.__init__`, `ArgParser.custom_parse_args`, `ScriptFitArgs.__init__`, `fit_model`, `main` |
| `scripts/beatsdrop/figures.py` | 5 | - | `ArgParser.__init__`, `ArgParser.register_plot`, `ArgParser.make_plots`, `ArgParser.custom_parse_args`, `save_fig`, `subplots`, `resaturate`, `plot_beat`, `plot_regression`, `plot_emd`, `plot_fft`, `plot_beat_imf`, `plot_ar_psd`, `plot_abstract`, `main` |
| `scripts/cim22/autotuning.py` | 0 | `main` | `ArgParser.__init__`, `ArgParser.custom_parse_args` |
| `scripts/cim22/performance.py` | 7 | `main` | `ArgParser.__init__`, `ArgParser.custom_parse_args`, `log_speedup_imshow` |
| `scripts/utils/extract_changelog.py` | 0 | `main` | `ArgParser.__init__`, `open_if_any` |
| `scripts/utils/make_changelog.py` | 1 | `main` | `ArgParser.__init__`, `ArgParser.custom_parse_args` |
| `scripts/utils/yapf_nbformat.py` | 3 | - | `ArgParser.__init__`, `ArgParser.custom_parse_args`, `main` |

No definition cites anything in: `sample/__init__.py`, `sample/vid.py`, `sample/widgets/images.py`. Plots, command-line
parsers, packaging scripts and notebook helpers among these have no properties here.

## Findings

Places where the code does not do what its documentation or a user would expect. Where a theorem
shows it, the theorem is named.
* `SinusoidalModel.pad_input` (`sample/sms/sm.py:343-358`): the docstring promises that the first window is centred at the first sample; this holds only for even window sizes, while the default window has size 2001 (`C19_centre`). Padding is meant 'to analyze all samples', but a hop larger than half of the window plus one leaves trailing samples out (`C19_large_hop_misses_samples`).
* `dft` (`sample/sms/dsp.py:10-41`): a window longer than the FFT may silently lose samples (`C17_long_window_loses_samples`); a window of size 1 raises `ValueError` because of `x[-0:]` (`C17_window_of_one`).
* `SinusoidalModel.fit` (`sample/sms/sm.py:314-318`): the storage is reset before `set_params`, so a storage given as keyword is used without a reset (`C08_given_storage_not_reset`).
* `OptionalStorage.append` with an out-of-range negative index raises `IndexError` after having created the key (`C32_negative`).
* `SAMPLE.sdt_params_` raises `ZeroDivisionError` for a model without modes, although `fit` keeps a 3-by-0 matrix for this case (`C26_no_modes`).
* `SAMPLE.fit` (`sample/sample.py:171-177`) silently ignores keyword arguments that are not current parameter names, misspelt ones as well as the deprecated `sinusoidal_model__*` prefix that the constructor and `set_params` honour (`C64_misspelt_ignored`).
* `OptionalStorage.append` (`sample/utils/learn.py:270-293`) is not atomic: with a pool, the first appends to a fresh storage can lose values (`C68_race_lost`) or raise `KeyError`, which makes the whole fit fail (`C68_race_raises`); on an initialised storage the list can get surplus trailing `None` (`C68_race_surplus`).
* `beat_decisor.intermediate` is never reset by a sequential `SAMPLEBeatsDROP.fit`, so decisions of a former, longer fit stay behind the new ones, whereas a parallel fit replaces the contents (`sample/_training.py:140-150`).
* `ModalTracker.deactivate` (`sample/sms/mm.py:155-170`) does not test a track again after merging: two accepted parts, the second one louder, give a track with an increasing trend, for which `SAMPLE.fit` reports a finite negative decay time; `predict` then synthesises an exponentially growing mode (`C65_merged_grows`).
* The deprecated argument `sine_tracker_cls` of `SinusoidalModel` always raises TypeError: the converter's parameter has the name of the keyword argument and also receives `self` (`sample/sms/sm.py:215-217`); `C31_sine_tracker_cls`. `safe_sine_len` raises TypeError when there are further positional arguments; `C31_safe_sine_len_positional`.
* `deprecated_argument(..., prefix=True)` loses a value when a renamed key is itself a given deprecated key (example next to `C31_prefix`).
* The deprecated argument `sample_fn` of `SAMPLEOptimizer` always raises TypeError with the default remapper, which gets the dictionary as a positional argument (`sample/optimize.py:95-98`); `C30_sample_fn`.
* With `remap=None` the optimiser drops the coordinates of the point, so that the loss does not depend on it (`sample/optimize.py:142-144`); `C30_no_remap`.
* `TqdmCallback.start` on a started callback leaves the old bar open (`sample/optimize.py:245-250`); `C66_start_twice`.
* `default_kws` cannot set a default named `d` (TypeError); `C36_clash`.
* `GammatoneFilter.wavefun(t, out=t)` reads `t` after the envelope was written over it (`C34_wavefun_in_place_fails`); `modal_energy(a, d, out=d)` likewise (`C34_modal_energy_out_d_fails`); `a_weighting(f, out=o)` with `db=True` leaves linear weights in `o` and returns another array (`C34_a_weighting_db`).
* `_normalize_rms` with `out=x` takes the standard deviation of the already centred signal; right because the variance does not depend on the offset (`C34_normalize_rms`), up to rounding.
* `normalize` gives NaN for zero (peak) and constant (range) signals without a check (`C37_degenerate`).
* `hz2bark(mode="zwicker")` exists but `bark2hz(mode="zwicker")` does not (`C48_unknown`).
* `overlapping_windows` with a negative hop and a window longer than the array shows memory outside of the array (`C40_negative_hop`). `strided_convolution` with a kernel longer than the signal gives an empty result or raises ValueError, depending on the stride (`C40_long_kernel`).
* `local_maxima(x, logical_and=True)` without `out` combines the result with uninitialised memory (`C41_local_maxima_garbage`). `onset_detection` of an empty signal raises IndexError if the detection function has an onset (`C41_empty_signal`).
* `PrecomputedIRBank.convolve` with a stride drops up to one sample per row at the end of a row whose delay is not a multiple of the stride; it may be a sample that is not zero (`C52_drops`). Responses of one sample without delays do not work with a stride: ValueError, or the only sample is lost (`C52_size_one`).
* `GammatoneFilter(normalize=True)`: documented as energy f_s, the code gives unit energy (`C51_energy`). Real and analytic responses are normalised by different factors, so that "the real part will be the ordinary cochleagram" holds only for filters that are not normalised (`C76_analytic`).
* `GammatoneFilter.t60` always raises ValueError for order 1 with the default range, which is zero (`C74_order_one`); so do `ir_size`, `precompute` and `cochleagram`.
* `GammatoneFilterbank` leaves half a step at the lower limit and one and a half at the upper limit (`C75_centres`): dividing by `n_filters + 1` together with the offset 0.5 is inconsistent.
* `cochleagram` with a real `PrecomputedIRBank` and `analytic="ir"`, or with any unknown `analytic` string, silently gives the real cochleagram without rectification (`C76_silent`). Text only: keyword arguments for the filterbank are ignored if one is given; `GammatoneFilterbank.__getattr__` recurses endlessly when `_filters` is missing (copy, unpickling).
* `Beat`: a pair of parameters of which only the second is a function of time raises ValueError (`C43_shapes`). Frequencies that are functions of time are multiplied by t for the amplitude, but taken as instantaneous frequencies for the phase: inconsistent (`C44_chirp`). The initial phase is that at time zero, also for a time axis that starts later (`C45_offset`). Text only: `_float_or_call` takes any TypeError raised inside a parameter function as "not callable".
* `sort_params(descending=True)` swaps partials with equal features at every call (`C46_descending_ties`).
* `SAMPLEBeatsDROP.fit` raises ValueError for the whole sound if there is one track from which the beat regression cannot start: constant frequency, magnitude that does not decay, or decay time of at least 100 s (`C79_unfeasible`, `C80_one_failure`, `C80_constant_frequency`).
* `predict(phases=None)` raises TypeError although None is the default of `additive_synth` (`C80_none_phases`).
* `lp_distance`: `p=np.inf` gives 1 for every pair of arrays, even equal ones, instead of the maximum norm (`C53_infinity`). Integer minus float arrays raise TypeError, float minus integer arrays do not; integer arrays with a float `p` other than 1 raise TypeError (`C53_kinds`). For `p` below one it is not a metric (`C53_small`).
* `MultiScaleSpectralLoss`: `njobs=0` is a ValueError and `None` means sequential, while `SAMPLE.fit` takes `n_jobs=0` as sequential and `None` as a pool (`C54_njobs`). A keyword argument of the call, for instance `n=512`, replaces that of every scale, so that all scales become equal (`C54_override`). Text only: a further positional argument clashes with the `n` of the scales.
* `BeatsGenerator` does not check its parameters: limits closer than the least beat frequency are always violated (`C55_narrow`). `audio` raises ValueError for a duration of exactly one sample, because `additive_synth` squeezes its result (`C83_refused`).
* `AudioLoadTab.load_cbk` (`sample/widgets/audioload.py:168-176`) assigns the new audio before automatic trimming; if no onset is found (for instance silence), the exception leaves the old trim bounds, which may be beyond the new audio (`C58_load`, `C58_stale`), or no bounds; then reloading the GUI from the cache raises in the constructor (`C58_reload_fails`).
* A mouse release outside of the axes raises TypeError and leaves the drag open: the next press does not choose a bound, and its release moves the one chosen before (`C58_open_drag`).
* `custom_positive_int` and `next_power_of_2` raise for NaN and infinity instead of using the default (`C60_positive_int_raises`, `C61_power_other`); `strip_time_parse` lets NaN through (`C60_strip_nan`). NaN frequency bounds are neither ordered nor replaced (`C84_bounds`).
* `postprocess_windows` loops forever if the Blackman window cannot be made (`C61_endless`); with an FFT size below one from an edited file the window is longer than the FFT (`C61_small`).
* For a version like 2.1.0.dev1 `extract_changelog` looks for `v2_1_0_.md`: the dot before "dev" becomes a trailing underscore (`C62_file_dev`).
* `scripts/beatsdrop/evaluation.py:534-537`: a run that resumes from the `.csv` table and writes no checkpoint never saves its new results (for example with a larger `--n-cases`): the table is written only if it is not the last file (`C86_not_saved`).
* `scripts/beatsdrop/evaluation.py:538`: the table is written in place. If the run is interrupted there and no checkpoint exists, later runs raise until the table is deleted (`C86_unreadable_table`).
* `scripts/beatsdrop/evaluation.py:442,515`: with `--no-resume` checkpoints are numbered from 0 while old ones remain; after an interruption the next run resumes from the old one with the highest number (`C87_no_resume_loses`). Checkpoints are deleted in the order of `glob`, not from the oldest, and are preferred to the table, so an interruption of the deletion makes the next run repeat tests although the table is complete (`C87_cleanup_loses`). A checkpoint cut between rows is taken as whole (`C87_cut_loses`).
* `scripts/cim22/performance.py:235`: the first case to run is computed with the current `--n-samples`; with a smaller value than in the earlier run, cases are skipped and never run (`C88_other_samples`). The table is written in place at line 363, so an interruption there can lose all rows (not modelled).
* `scripts/utils/yapf_nbformat.py:140,148`: newlines at the end of a cell and other line boundaries are lost, so that such a cell always counts as changed; a line of a notebook that looks like a wrapped command is unwrapped (`C90_unwrap_wrap`). Line 154 tests a generator, which is always true.
* `sample/widgets/audioload.py:169`, `scripts/beatsdrop/example.py:137`: WAV files with 8 bits (unsigned) are divided by zero (`C91_unsigned`). The GUI raises `ValueError` for WAV files of floating-point numbers (`C91_floats`), among them those written by the example script.
* `scripts/beatsdrop/example.py:158,171`: with only `--crop-end`, and after the end of the audio, the size is taken for an onset and the cropped audio is empty (`C92_beyond`).
* `sample/utils/dsp.py:333-336`: the documentation of `fft2autocorrelogram` says that the default `n` for a one-sided transform is twice the size of `a`; it is twice the size minus two. For signals of odd length the default loses a sample (`C94_default`), and a transform with one bin raises `ValueError` (`C94_error`).
* `sample/utils/dsp.py:244-245`: `f2bin` of a number raises `TypeError`, because `numpy.multiply` then returns no array that can be used as `out` (`C95_scalar`).
* `sample/utils/dsp.py:296-306`: a frequency equal to `lpf` is cut off, one equal to `hpf` is not; frequency zero is kept whatever `lpf` is; a negative `lpf` is used as a negative index, so that not everything is cut off (`C95_periodogram`, `C95_negative_lpf`).
* `sample/widgets/analysis.py:231-251`: loading or trimming does not discard `audio_resynth_x`: after another file is loaded, the resynthesis of the old file is played and exported at the sample rate of the new one (`C97_stale`).
* `sample/_training.py:46,71`: with a pool, `starmap_progress` counts the results again after `_progress_starmap` has reported them, so that the progress exceeds its maximum (`C98_pool_exceeds`).
* `sample/gui.py:73`: a child that ends without a message is started again. `sample/widgets/userfiles.py:65` writes `settings.json` in place, at every start of the GUI: if it is killed there, the file cannot be read, no window appears any more, and the program starts children forever (`C99_killed`, `C99_stuck`). An `audio.cache` that cannot be read is never removed (`C99_broken_cache`).
* `set_params` is not all or nothing: with a name that is no parameter it raises `ValueError`, but arguments before it are stored (`set_params_partly`). `set_params(sinusoidal=None, sinusoidal__t=2)` raises `AttributeError` after having replaced the part, although the constructor takes the same arguments (`set_params_none_nested`); hence `sample_factory(sinusoidal=None)` always raises (`factory_below`).
* `sample/sample.py:91`, `sample/sms/sm.py:262`: nested arguments of a constructor are set on the estimators given to it: `SAMPLE(sinusoidal=s, sinusoidal__n=7)` changes `s` and every model that has it (`shared_part`).
* `scripts/beatsdrop/figures.py:533-562`: the phases of `_cos_ft` and `_beat_ft` are lags: their sign is opposite to that of `additive_synth` (`phase_is_lag`).
* `scripts/beatsdrop/figures.py:695-709`: an empty signal raises `IndexError` (`C103_empty`); a flat extremum is not marked (`flat_minimum`).
* `sample/ipython.py`: the regular expression of `_unwrap_sphinx` is greedy, so with two roles on a line everything after the first up to the end of the last is lost (`two_roles`). A class whose name contains `__` gives an empty page, and documentation is not escaped for HTML (not modelled).
* `scripts/beatsdrop/evaluation.py`: the file of ranks is used whatever the data are (`C105_stale`). Without `--tqdm` the importances are never computed: uninitialised memory is written to the table and used again by later runs (`C106_uninitialised`). With a critical difference of 0 the comparison is "larger" both ways (`both_larger`). `prepare_folders` with an output path without a directory calls `os.makedirs("")`, which raises (`C121_prepare`).
* `sample/plots.py:75-97`: `sine_tracking_3d` ignores `reverse` and draws a reversed analysis backwards (`C107_3d`). `sine_tracking_2d` lacks the half window that `_preprocess_track` adds without padding (`C107_shift`), and raises for a reversed analysis without tracks. `beatsdrop_comparison` fails with a single model (`fig.subplots(3, 1)` is one-dimensional) and with axes given as a list (`axs.shape`); `resynthesis` fails with an empty signal (`t[[0, -1]]`) (not modelled).
* `sample/widgets/audio.py:11-60`: `TempAudio.lock` is a lock that cannot be taken twice, and `__del__` takes it: if the garbage collector runs `__del__` of one object in the thread inside `play` of another, that thread waits for itself for ever (`C109_deadlock`, `collected_within`). A buffer may be closed by `__del__` while the mixer still plays it (`closed_while_heard`).
* `sample/psycho.py:753-760`, `sample/beatsdrop/__init__.py:182-187`: `__getattr__` reads an attribute that is missing before `__init__`, hence `copy.copy`, `copy.deepcopy` and `pickle.loads` of filterbanks and beats end in a RecursionError (`C110_endless`). A filterbank without filters has every attribute (`empty_bank`).
* `sample/widgets/pyplot.py:13-33`: a repeated name of a class that only `tkinter` has raises a TypeError in `mock_tk2ttk` (`Verif.Tk.twice`).
* `sample/widgets/utils.py:11-19`: `get_root` returns the parent of the widget, not the root: attributes are shared by the children of one widget only (example beside `C116_class`).
* `sample/beatsdrop/regression.py:126-147`: the time axis of the model ends before the greatest time, so an amplitude at a greatest time that is a multiple of `1/fs` is compared with the beat one step earlier (`C117_last`). With times as a column, as documented in line 275, all pairs of times and amplitudes are compared, without an error if `params_init` accepts them (`C117_column`).
* `sample/widgets/analysis.py`: exports truncate the chosen file before they write, so a failure loses its old contents (`C119_lost`).
* `sample/sms/mm.py:173-187`: `all_tracks_` adds the tracks that are still active at the end without merging them, so a partial that pauses and then sounds until the last frame is reported as two tracks (`C123_pauses`, last example of `Tracker/PauseProps.lean`).
* Integer inputs of small width overflow silently in `erb`, `a_weighting`, `modal_energy`, `hz2cams`, `cams2hz`, `semisum` and `semidiff`: `np.square(f, out=out)` computes in the type of `f`, not of `out` (C136_erb_int16, C136_hz2cams_int16, C136_cams2hz_uint8, C136_semisum_uint8, C136_semisum_bool). `erb` of 1000 Hz as a 16-bit integer is 37.96 Hz instead of 44.09 Hz.
* `normalize` raises `TypeError` for integer arrays, such as 16-bit samples (C136_normalize_int); `GammatoneFilter.envelope` raises it for integer times (C136_envelope_int); `hinge_function` raises it for integer arrays if its float parameters are given by keyword, because `numpy_out` looks at positional arguments only (C136_hinge_keywords).
* `dychotomic_zero_crossing` multiplies the values at the limits to compare their signs; if the product underflows, equal signs are not noticed (`C139_underflow`).
* The default limits of the hinge fit coincide (so that `least_squares` raises) for times or values from 2^54 on that are all equal (`C140_infeasible`): 1 is subtracted and added without effect.
* `Beat.fm` is not finite if amplitudes of opposite signs nearly cancel, although the exact value is (`C141_cancel`).
* `f2bin(bin2f(b))` may be b + 1, because the rounded-up product exceeds b by a rounding error: for nfft = 1000 and fs = 1, bins 9, 13, 18, 26, … (`C142_off`). A high-pass limit of `lombscargle_as_fft` at the frequency of such a bin excludes it.
* `GammatoneFilter.group_delay = v` stores a leading time, so a later change of bandwidth, order or (default bandwidth) frequency moves the group delay (`C145_group_delay`).
* The default phase of `GammatoneFilter` does not align the carrier with the envelope: `wavefun` uses t, the phase is that for t + t_c, so that at the peak the carrier has the phase -f(n-1)/b (`C145_carrier`, `C145_trough`).
* The tracker compares computed thresholds: 30 Hz at 1000 Hz with the default parameters, where offset and slope (as doubles) give a little more; a jump of 30 Hz is a new track (`C146_off`).
* `BeatRegression.fit` refuses some tracks although neither frequency nor amplitude is constant: when the range of the frequency is lost in rounding, e.g. 256 Hz and the double below it (`C149_gap`).
* The time axis of a track needs enough precision: with four bits two neighbouring frames get the same time (example after `C150_short`); with doubles `C150_fit` excludes it for signals of less than 10^14 hops.
* The deprecated argument `safe_sine_len`, a number of frames, is stored in `tracker__min_sine_dur`, which is a number of seconds (`sample/sms/sm.py:206-212` against 48 and 90-93): it becomes at least one second, also for `None`, and n frames become n seconds, e.g. 89 frames instead of 1 with the default rates (`safe_sine_len_alone`, `safe_sine_len_seconds`).
* A negative `n_jobs` is a ValueError of `multiprocessing.Pool` (`sample/_training.py:114`), whereas with `n_jobs=-1` scikit-learn uses all processors; here `None` does (`C56_context`).
* `sample/optimize.py:165-166`: the loss of `SAMPLEOptimizer` draws random phases without a seed, so that the loss of a point differs from call to call and `random_state` (or `--seed` of `scripts/cim22/autotuning.py`) does not make the search reproducible (`C153_loss`).
* `sample/beatsdrop/regression.py:305-306, 494-495`: `params_` and `beat_` are assigned one after the other, so a `fit` interrupted between (e.g. by Ctrl-C) leaves new parameters with the beat of the previous fit, which `predict` shows (`C154_mixed`). A `fit` that raises leaves `res_fn_`, `initial_params_`, `bounds_` of the new data with `params_`, `beat_` of the old (`C154_stale`).
* `sample/beatsdrop/regression.py:309-322`: `predict` squeezes the time axis, so that the default output at a single time raises (`C154_errors`); and outputs that do not depend on time ("f0", "p_hat", ...) are scalars, not arrays as documented (`C154_predict`).
* `sample/plots.py:289-294, 328-336`: with a single regression `fig.subplots` squeezes the array of axes, so that `axs[0][i]` raises a TypeError after the fits (`C155_errors`).
* `sample/plots.py:402-403`: `axs[c, -1]` puts the label of the time axis on the last column instead of the bottom row unless the figure is transposed; axes passed as nested lists raise an AttributeError at `axs.shape` after everything is drawn (`C155_labels`, `C155_drawn`).
* `sample/beatsdrop/regression.py:168-210, 213-261, 443-454`: the optimiser has both phases as free parameters although only their difference affects the residuals (`C156_residuals`): the least-squares problem is never uniquely solvable and its Jacobian is always singular in the direction (p0, p1) = (1, 1). `BeatRegression` has also both frequencies free although only their distance matters (`C156_residuals_amplitude`).
* `sample/hinge.py:153-163`: the default bounds exclude the true parameters of tracks that are mostly noise floor. The slope may be at most eight times the slope of the line through the whole track, so a decay over less than about a fifth of the track comes out too long (`C157_limits`, `C157_sixth`). The intercept may differ from that of the line by at most the largest distance of a level from it, although it is the level extrapolated to time zero: for tracks that do not start at time zero the true amplitude is excluded when the decay takes less than about a quarter of the track, and for later starts already when it takes less than about half of it (`C157_quarter`, `C157_iff`). No solver can compensate for this. Times relative to the beginning of the track, or bounds that grow with its start, would avoid the second limit.
* `sample/hinge.py:224-232`: `fit` stores the starting values in `coeffs_` before it computes the bounds and calls the optimiser. When either raises (for a single point the default bounds always do), the estimator looks fitted: `predict`, `a_`, `k_` and `q_` answer with the starting values of the failed call, next to the `result_` of an earlier fit (`C158_failure`, `C158_single`).
* `sample/sample.py:176-195`, `sample/sms/sm.py:95-101,333-336`: `tracks_` and `param_matrix_` of a model need not belong together. A fit that raises in the middle has replaced the tracks but not the parameters; and because `tracks_` is computed at each access from the tracker with its current settings, changing e.g. `min_sine_dur` or `strip_t` after a fit removes or adds tracks at the end of the sound without changing the parameters (`C159_stale`). Keyword arguments of a failed fit stay in force (`C159_raise`).
* `sample/psycho.py:650-663`: `GammatoneFilter.wavefun(t)` with a scalar `t` (the annotated type is `float`) and no `out` raises `TypeError`: `envelope` returns a scalar, which is then used as `out` of `np.multiply` (`C160_wavefun_scalar`). `sample/utils/__init__.py:201-210`: the result is allocated with the shape of the first argument, so that symmetric functions such as `_semisum` accept a scalar or smaller array as second argument only (`C160_order`), and an array passed by keyword raises `IndexError` (`C160_keywords`).
* `sample/widgets/audioload.py:209,291-293`: showing the trim bounds changes them. `update_plot` writes `i / sr` into the entries, whose callbacks set the bound to `int((i / sr) * sr)`; with doubles this is `i - 1` for many `i` (at 44100 Hz about 7 percent of the indices, e.g. 15). So the region that is played and analysed may start one sample before the detected onset, a drag of one bound may also move the other, and each reload may move a bound further (`C161_drift`). Rounding to the nearest integer would avoid it.
* `sample/optimize.py:61,67`: `int` cuts rounded products, so a decimal overlap may lose a sample: overlap 0.9 of a window of 1000 samples gives hop size 99, not 100 (`C162_hop_off`), and a window of a fraction `1 / n` may be empty (`C162_window_empty`, n = 49).
* `mel_spectrogram(x)` without options always raises `ValueError` (`sample/psycho.py:1130-1147` passes no number of filters to `mel_triangular_filterbank`, which then takes the first and last frequency for two corners, hence no filter). Theorem `C165_bare`. With a filterbank given, the first result, documented as the array of centre frequencies, is `None` (`C165_given`).
* `GammatoneFilterbank.convolve` documents `postprocess` (`sample/psycho.py:907-909`), but `cochleagram` looks for `postprocessing` and passes other keywords to a new filterbank only if none is given (`sample/psycho.py:985-992`): a function given by the documented name, or a misspelt keyword, is ignored without an exception (`C166_postprocess`, `C166_ignored`). With responses made beforehand, another sample rate is ignored as well (`C166_reuse`).
* `sample/ipython.py:26-34`, `sample/web_audio.html`: the label is put into the page without escaping, so that `<` or `&` in it is read as HTML; an array of shape (samples, channels) gives one channel per sample (`C167_exchanged`); an empty signal gives a page whose button fails, as a buffer without samples cannot be made (not modelled).
* `sample/widgets/settings.py:544-547`: `reset_selections` reads `entry` of every setting, but spacers have none (`sample/widgets/settings.py:459-461`), and the first setting is a spacer. The `AttributeError` is swallowed by `sample/widgets/main.py:104-105`, so that a change of tab never clears a selection (`C168_nothing`).
* `sample/beatsdrop/regression.py:448-451`: only the estimated frequencies are limited by `freq_clip`, not those of the data, so that the true parameters of a noiseless beat can have a residual that is not zero with the default options (`C169_witness`); and the limit is half of the documented multiple of the interquartile range.
* `sample/ipython.py:153-160`: the default options have no `rate`, which `IPython.display.Audio` requires for arrays: `LabelAndPlayForeach()` raises `ValueError` at the first signal (`C171_rate`).
* `sample/ipython.py:138-146`: `time_this` has no `try`: code that raises is not timed; and a message with a wrong field raises only after the code has run (`C172_late`).
* `scripts/beatsdrop/evaluation.py:658`: the report file is emptied before the report is made, so an exception in `print_report` leaves an empty or unclosed LaTeX document in place of the old one (`C173_report_raises`, `C173_report_cut`); the added `\usepackage` line has no end of line (line 565) and shares its line with the next (`C173_report`).
* `scripts/beatsdrop/evaluation.py:742-743,993-994`: the reports of the decisions and of the FFT sizes have the same file name for the same output: the second overwrites the first (`C173_same`).
* `sample/widgets/pyplot.py:52-53,68-69`: the options `active background` and `active foreground` have a space; the Tk options are `activebackground` and `activeforeground`, so as long as themes have no style of that name nothing is set (`C175_option` for an empty style). Also `sample/widgets/utils.py:11-19`: `get_root` is the parent of the widget.
