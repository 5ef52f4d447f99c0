{"id": "C01", "title": "Active tracks never exceed max_n_sines", "statement": "After any number of frames have been given to a reset sine tracker (plain or modal), the number of tracks that are currently active is at most max_n_sines.", "quantifier": "every tracker configuration, every finite sequence of frames, every frame content, every tie-breaking of the magnitude sort", "why_tests_cant": "A test feeds a few recordings; overload needs an adversarial sequence of births and continuations.", "anchors": ["sample/sms/sm.py: SineTracker.__call__, reset, n_active_tracks"]}
{"id": "C02", "title": "Every track is contiguous and aligned to the frame clock", "statement": "In every reachable tracker state an active track that started at frame s holds exactly (current frame - s) >= 1 samples in each of its freq, mag and phase lists, and every finished track of the plain tracker lies wholly in the past, with the three arrays of equal length.", "quantifier": "every configuration and every finite sequence of frames", "why_tests_cant": "The alignment of list positions with absolute frames is an invariant of the whole history.", "anchors": ["sample/sms/sm.py: SineTracker.__call__, deactivate, numpy_track"]}
{"id": "C03", "title": "Track samples are real peaks, and no peak is used twice", "statement": "For every frame k, the (frequency, magnitude, phase) triples that all finished and active tracks together attribute to frame k form a sub-multiset of the peaks that were given for frame k: no invented, mixed or duplicated sample.", "quantifier": "every configuration, every sequence of frames, every frame index", "why_tests_cant": "A double assignment needs a particular interleaving of loudness order and nearest-track choices.", "anchors": ["sample/sms/sm.py: SineTracker.__call__"]}
{"id": "C04", "title": "Frequency jumps inside a track stay below the deviation threshold", "statement": "Any two consecutive samples f, f' of a track made by the plain tracker satisfy |f - f'| < freq_dev_offset + freq_dev_slope * f'.", "quantifier": "every configuration and every sequence of frames", "why_tests_cant": "Must hold for every pair of consecutive samples of every track of every history.", "anchors": ["sample/sms/sm.py: SineTracker.__call__, df"]}
{"id": "C05", "title": "Peak-to-track matching is the greedy loudest-first nearest-track matching", "statement": "One tracker update pairs peaks with active tracks one-to-one such that: a pair is closer than the threshold; a track strictly nearer to a paired peak than its partner was taken by a peak at least as loud, and peaks can be ranked such that it was always taken by a peak of smaller rank (so ties are resolved in one order, never in a circle); and an unpaired peak is within the threshold only of tracks taken by peaks at least as loud.", "quantifier": "every set of active tracks, every peak list, every valid magnitude sort order", "why_tests_cant": "Blocking pairs appear only for particular arrangements of loudness and distance.", "anchors": ["sample/sms/sm.py: SineTracker.__call__, min_key"]}
{"id": "C06", "title": "Saved tracks are long enough", "statement": "Every track reported by a tracker built by the plain acceptance rule has at least max(2, ceil(min_sine_dur * fs / h)) frames, hence it spans at least min_sine_dur seconds of hops.", "quantifier": "every configuration with fs, h > 0, every sequence of frames", "why_tests_cant": "The rounding interacts with real-valued durations; the property ranges over all rates and hops.", "anchors": ["sample/sms/sm.py: SineTracker.min_sine_len, track_ok, all_tracks_"]}
{"id": "C07", "title": "No accepted track is lost and unused peaks start tracks while there is room", "statement": "In one update: active tracks that were not continued leave the active list, and exactly those that pass the acceptance rule are appended to the finished list, in order, once; all other active tracks stay, in order; peaks not used for continuation start new tracks in index order until the limit is reached; if the limit is not reached every peak of the frame is in an active track.", "quantifier": "every state, every peak list, every valid sort order", "why_tests_cant": "Removing several entries from a list by index while iterating is right or wrong depending on the combination of removed indices.", "anchors": ["sample/sms/sm.py: SineTracker.__call__, deactivate"]}
{"id": "C08", "title": "A fit does not depend on what was analysed before", "statement": "The tracks (and stored intermediate values) of SinusoidalModel.fit depend only on the configuration and the input, not on any earlier use of the same object; fitting twice gives the same object as fitting once. (A storage object passed to fit itself is the exception: it is not reset.)", "quantifier": "every two inputs, every prior state", "why_tests_cant": "Leaks of state depend on which history preceded the fit.", "anchors": ["sample/sms/sm.py: SinusoidalModel.fit, SineTracker.reset", "sample/utils/learn.py: OptionalStorage.reset"]}
{"id": "C09", "title": "Modal tracks satisfy the acceptance criteria", "statement": "The modal tracker accepts a track iff it is long enough, its mean frequency lies in the (closed, possibly open-ended) bounds, its least-squares magnitude slope in forward time is not positive and its least-squares magnitude at the onset is not below peak_threshold.", "quantifier": "every track of length >= 2, both time directions, every configuration", "why_tests_cant": "It is an equivalence with the least-squares line, over all magnitude sequences.", "anchors": ["sample/sms/mm.py: ModalTracker.track_ok"]}
{"id": "C10", "title": "Reverse-mode acceptance equals forward acceptance of the time-reversed track", "statement": "A track is accepted with reverse=True iff the same track read backwards in time is accepted with reverse=False.", "quantifier": "every track and configuration", "why_tests_cant": "A symmetry over all tracks.", "anchors": ["sample/sms/mm.py: ModalTracker.track_ok"]}
{"id": "C11", "title": "Merging preserves samples, their frames and the gap", "statement": "When the modal tracker finishes an accepted track it is either appended unchanged or merged into exactly one earlier finished track that ended strictly before; in both cases the set of (frame, freq, mag, phase) samples reported by the finished tracks is the old set plus the new track's samples at their absolute frames, the gap frames hold NaN, and nothing else changes.", "quantifier": "every tracker state reachable by any frame sequence and any finishing track", "why_tests_cant": "Wrong padding shifts samples in time only for some start frames and gaps.", "anchors": ["sample/sms/mm.py: ModalTracker.deactivate"]}
{"id": "C12", "title": "Merging picks the closest earlier track and only below the threshold", "statement": "A merge happens iff some earlier finished track ended strictly before the new one starts and the smallest frequency difference (by the selected strategy) among those is below the deviation threshold at the new track's first frequency; the partner is the first one attaining the smallest difference. An unknown strategy raises KeyError.", "quantifier": "every list of finished tracks, every new track, both strategies", "why_tests_cant": "Argmin with filtering and ties over arbitrary lists.", "anchors": ["sample/sms/mm.py: ModalTracker.deactivate, freq_diff_function, _track_diff_avg, _track_diff_single", "sample/sms/sm.py: min_key"]}
{"id": "C13", "title": "Strip time keeps exactly the tracks with an early onset, in both directions", "statement": "With strip_t set, the reported tracks are exactly those whose onset frame, measured in forward time of the original audio, is at most ceil(strip_t * fs / h); without it nothing is removed.", "quantifier": "every configuration, every reachable state, both time directions", "why_tests_cant": "Boundary of an inequality with rounding, over all states.", "anchors": ["sample/sms/mm.py: ModalTracker.all_tracks_, strip_n"]}
{"id": "C14", "title": "Peak detection returns exactly the strict interior local maxima above the threshold", "statement": "An index is returned by peak_detect iff it is an interior index whose value is strictly greater than both neighbours and than the threshold (if any); indices come in increasing order without repetition.", "quantifier": "every array, every threshold, including arrays shorter than three", "why_tests_cant": "Equivalence for every input array and boundary.", "anchors": ["sample/sms/dsp.py: peak_detect"]}
{"id": "C15", "title": "Parabolic refinement is bounded, order preserving and exact on parabolas", "statement": "For detected peaks the refined location differs from the bin by less than half a bin, refined locations stay strictly increasing, the refined magnitude is at least the bin magnitude, and when the three points lie on a downward parabola the refinement returns its vertex.", "quantifier": "every spectrum and every detected peak", "why_tests_cant": "Real-valued identities and inequalities over all spectra.", "anchors": ["sample/sms/dsp.py: peak_refine, peak_detect_interp"]}
{"id": "C16", "title": "Refined phases are interpolated inside the spectrum", "statement": "The interpolated phase of a detected peak lies between the smallest and the largest of the phases of the two bins enclosing the refined location; the lookup never leaves the spectrum.", "quantifier": "every magnitude and phase spectrum of equal size", "why_tests_cant": "Depends on the bound on the refined location for all spectra.", "anchors": ["sample/sms/dsp.py: peak_refine"]}
{"id": "C17", "title": "Zero-phase buffer is a rotation of the windowed frame", "statement": "For a window of size 2 <= w <= n the FFT buffer built by dft holds the windowed sample with offset k from the window centre at index k modulo n, and zero elsewhere, so that every windowed sample appears exactly once. Outside of this range the promise fails: a window of one sample raises ValueError, and a window longer than the FFT can lose samples without any error.", "quantifier": "every frame, window and FFT size with 2 <= w <= n", "why_tests_cant": "Index arithmetic for every parity and size.", "anchors": ["sample/sms/dsp.py: dft"]}
{"id": "C18", "title": "Frames never leave the signal and the last frame is the last that fits", "statement": "overlapping_windows(x, wsize, hop) yields frame i = x[i*hop : i*hop+wsize]; all frames are inside x; one more frame would not fit; the count is 1 + (len-wsize)//hop when len >= wsize. A signal shorter than the window gives no frames or a ValueError, never a read outside of the signal.", "quantifier": "every signal length, window size and hop >= 1", "why_tests_cant": "Floor-division boundaries for all sizes.", "anchors": ["sample/utils/dsp.py: overlapping_windows, n_windows", "sample/sms/sm.py: SinusoidalModel.time_frames"]}
{"id": "C19", "title": "Padding keeps the signal and every sample is analysed", "statement": "With padded=True the analysed signal is zeros, then the input, then zeros (a window size of zeros in total), and there are 1 + len//hop frames. When the hop is at most half of the window plus one, every input sample is inside some frame; for every larger hop there are inputs with samples in no frame. The first frame is centred at the first input sample for even window sizes and one sample before it for odd ones. With padded=False the input is analysed as it is.", "quantifier": "every input, window size and hop", "why_tests_cant": "Coverage is a statement over every sample of every input.", "anchors": ["sample/sms/sm.py: SinusoidalModel.pad_input, time_frames"]}
{"id": "C20", "title": "Track times refer to the analysed audio in both directions", "statement": "The time attributed to a track sample is (frame index)*h/fs (plus half a window if the input is not padded); in reverse mode it is the audio duration minus that. It is the middle of the samples of the original audio that the frame shows, in both directions (half a sample away with padding and an odd window size). NaN samples are removed together with their times. (The arrays of a track have one length, other than one, and NaN at the same places, as all tracks of the trackers do.)", "quantifier": "every track, configuration and audio length", "why_tests_cant": "Time-axis bookkeeping with gaps for all tracks.", "anchors": ["sample/sample.py: SAMPLE._preprocess_track"]}
{"id": "C21", "title": "Decay and amplitude reproduce the fitted magnitude line", "statement": "With the fitted slope k != 0 and intercept q (dB), the mode (d, a) reported by the track fit satisfies 20*log10(a*exp(-2t/d)) = k*t + q for every t; d > 0 iff k < 0.", "quantifier": "all real k != 0, q, t", "why_tests_cant": "Identity over the reals.", "anchors": ["sample/sample.py: SAMPLE._fit_track, _D2K_CONST", "sample/utils/dsp.py: db2a"]}
{"id": "C22", "title": "Only finite parameter columns survive a fit", "statement": "After SAMPLE.fit every column of param_matrix_ is entirely finite, every finite column computed from the tracks is kept, in order, and with no tracks the matrix has 3 rows and 0 columns.", "quantifier": "every list of per-track parameters, including NaN and infinities", "why_tests_cant": "Quantifies over all parameter values.", "anchors": ["sample/sample.py: SAMPLE.fit, _valid_params_"]}
{"id": "C23", "title": "Modal energy is the integral of the squared envelope", "statement": "For decay d > 0, energies_ equals the integral over t >= 0 of (a*exp(-2t/d))^2; it is non-negative.", "quantifier": "all a and all d > 0", "why_tests_cant": "An improper integral cannot be checked by sampling.", "anchors": ["sample/sample.py: modal_energy, SAMPLE.energies_"]}
{"id": "C24", "title": "Resynthesis with n modes uses the n most energetic modes", "statement": "predict(n_modes=n) with the default order synthesises min(n, number of modes) distinct modes and every mode left out has at most the energy of every mode used; with n_modes=None all modes (or max_n_modes) are used, and user phases follow their modes.", "quantifier": "every parameter matrix, every n, every valid argsort", "why_tests_cant": "Quantifies over all energy configurations and tie-breakings.", "anchors": ["sample/sample.py: SAMPLE.predict, mode_argsort_"]}
{"id": "C25", "title": "Additive synthesis is the sum of damped sinusoids", "statement": "additive_synth returns sum_j a_j*exp(-2t/d_j)*cos(2*pi*f_j*t+phi_j): additive in the list of modes, homogeneous in amplitude, invariant under reordering of modes, bounded by the sum of |a_j| for t >= 0 and d_j > 0; the analytic output has it as real part; an unsupported phase option raises ValueError.", "quantifier": "every list of modes with non-zero decays, every time", "why_tests_cant": "Algebraic laws over all inputs.", "anchors": ["sample/sample.py: additive_synth"]}
{"id": "C26", "title": "SDT parameters are consistent", "statement": "In sdt_params_ the lists freqs, decays, weights and the gains row all have nModes entries and describe the same modes (one permutation); activeModes <= nModes; the first activeModes modes are those that predict uses; weights sum to one; activeModes = nModes if max_n_modes is None. Without modes it raises ZeroDivisionError.", "quantifier": "every fitted model with at least one mode, every order", "why_tests_cant": "Consistency of several lists for all parameter matrices; the empty model is an error case.", "anchors": ["sample/sample.py: SAMPLE.sdt_params_"]}
{"id": "C27", "title": "Hinge model: line before the knee, constant after", "statement": "hinge_function(x,a,k,q) equals k*x+q for x <= a and k*a+q for x >= a; it is continuous and monotone in x in the direction of k.", "quantifier": "all reals", "why_tests_cant": "Real-valued law.", "anchors": ["sample/hinge.py: hinge_function"]}
{"id": "C28", "title": "Default hinge bounds are always feasible for the optimiser", "statement": "For every data set with more than one point and every starting slope and intercept, the default bounds satisfy lower < upper in each coordinate and contain the default starting point; with one point or none a ValueError is raised.", "quantifier": "every data set and starting coefficients", "why_tests_cant": "scipy rejects infeasible bounds; degenerate data sets (all equal, zero slope) are easy to miss.", "anchors": ["sample/hinge.py: HingeRegression._default_bounds, _default_coeffs_init"]}
{"id": "C29", "title": "Remapped STFT settings are valid", "statement": "Whenever sample_kwargs_remapper returns: its own four parameters (log_n, wtype, wsize, overlap) are gone; every other argument given is kept unchanged, an explicit FFT size, window or hop size included, and nothing else is added but those three; a missing FFT size is 2**log_n when log_n is given (which then is a natural number); a missing window has the integer part of wsize times the effective FFT size as its size (never more than the FFT size for a fraction in [0,1]); a missing hop size is between 1 and the size of the effective window for every overlap and non-empty window, and for an overlap in [0,1] it is the integer part of (1-overlap)*size, but at least 1. The deprecated spellings of the parameters work like the new ones.", "quantifier": "every keyword dictionary, every sinusoidal model given as an object, every log_n, window fraction and overlap", "why_tests_cant": "Rounding and clipping for all real overlaps.", "anchors": ["sample/optimize.py: sample_kwargs_remapper"]}
{"id": "C30", "title": "Optimiser loss receives exactly the named point", "statement": "The optimiser passes to the remapper exactly the named point: coordinate i under the name of dimension i, the fixed arguments under their names. A wrong number of coordinates is a ValueError, a fixed argument named like a dimension a TypeError. The loss at a point is computed on a clone of the model configured with the remapped arguments and fitted on the target; when clipping is on, no sample of the compared resynthesis exceeds the peak of the target and samples within the peak are unchanged. The model returned by gp_minimize is configured exactly as in the loss at the returned point, and (without fit arguments) that loss is the loss of the returned model. A previous state gives the initial points and values unless the caller gives some; warning filters are restored whatever the minimiser does.", "quantifier": "every set of dimensions, every point, every remapper, every behaviour of the minimiser", "why_tests_cant": "Zip truncation bugs show only for particular lengths.", "anchors": ["sample/optimize.py: SAMPLEOptimizer._kwargs, loss, gp_minimize"]}
{"id": "C31", "title": "Deprecated arguments are forwarded under their new name", "statement": "Calling a function decorated with deprecated_argument(old,new) with old=v behaves as calling it with new=v (overriding an explicitly given new), leaves every other argument unchanged, and warns exactly once when old is given and never otherwise; a stack of such decorators behaves like one renaming in which the innermost given old name wins; with prefix=True old+s is renamed to new+s for every suffix s; converters get all arguments of the call and their result replaces the old argument. For SinusoidalModel: the minimum duration received is the given one (either name) raised to safe_sine_len.", "quantifier": "every keyword dictionary, every stack of decorators whose old names are distinct and not new names, every suffix", "why_tests_cant": "Quantifies over all keyword dictionaries and stacking orders.", "anchors": ["sample/utils/__init__.py: deprecated_argument"]}
{"id": "C32", "title": "Optional storage stores everything in order or nothing at all", "statement": "With save on, after any sequence of append calls a key's list contains exactly the appended values in order (or at the given indices, with None in the holes); with save off nothing is stored; append returns its value in both cases; reset empties it.", "quantifier": "every sequence of operations", "why_tests_cant": "A history property.", "anchors": ["sample/utils/learn.py: OptionalStorage"]}
{"id": "C33", "title": "Default properties build a fresh default on assignment and never share it", "statement": "Assigning None (or any value that the property's defaulter rejects) to a default property stores a newly built default object, different from every object seen before; assigning any other value stores that value. Reads return the same stored object until the next assignment to the same property of the same object, whatever happens to other objects and other properties; a read before any assignment raises AttributeError. Names that could collide (none, '<lambda>', '_') are rejected with ValueError.", "quantifier": "every sequence of reads, assignments and defaulter changes on several properties and objects", "why_tests_cant": "A history property with aliasing.", "anchors": ["sample/utils/learn.py: default_property, _DefaultProperty"]}
{"id": "C34", "title": "Functions with an out argument: same values, nothing else changed", "statement": "For the functions decorated with numpy_out (normalisation, dB conversion, frequency scales, A-weighting, gammatone envelope, hwr, modal energy, hinge function, exponential decay, semisum, semidiff, bin2f): a call with out absent, with an unrelated out, or with out being the first input (any input for the two-argument sums and the floored a2db) returns that array with the same values as documented by the formula of the function, evaluated on the inputs as they were before the call; it fails with the same exception; and no other array changes, the inputs included. Exceptions, each proved: GammatoneFilter.wavefun with out=t and modal_energy with out=d give other values; a_weighting with db=True does not write its result to out.", "quantifier": "all inputs; every choice of arrays, identical ones included; every content of uninitialised memory", "why_tests_cant": "Aliasing bugs depend on the order in which the buffer is overwritten.", "anchors": ["sample/utils/__init__.py: numpy_out", "sample/sample.py: modal_energy", "sample/utils/dsp.py: a2db, db2a", "sample/psycho.py: hz2bark, bark2hz, erb"]}
{"id": "C35", "title": "Warning filter is toggled by the flag and always restored", "statement": "A function decorated with warnings_simplefilter is run with the filter first in the list of filters iff the toggle argument (or its default value) is true or there is no toggle; otherwise it is run as it is. The toggle argument is not forwarded, all others are. After a filtered call the filters and the destination of messages are those before it, whether the function returns or raises and whatever it does to them; so they are after any history of decorated calls.", "quantifier": "every call, every outcome of the wrapped function", "why_tests_cant": "Exception paths and argument removal for all calls.", "anchors": ["sample/utils/__init__.py: warnings_simplefilter"]}
{"id": "C36", "title": "default_kws: given values override, defaults fill in, the input is not modified", "statement": "default_kws(d, **defaults) returns a new dictionary that has for each key the value of d if d has it, else the default; d (and every other dictionary) is unchanged by the call and by later assignments to the result. A default named 'd' is a TypeError.", "quantifier": "every dictionary and defaults; every history of calls and assignments", "why_tests_cant": "History property on a shared mutable dictionary.", "anchors": ["sample/utils/__init__.py: default_kws"]}
{"id": "C37", "title": "Normalisation reaches its target", "statement": "normalize in mode peak multiplies a signal that is not zero everywhere by a positive factor such that the largest absolute value is 1; in mode rms a signal with two different samples becomes an increasing affine image with mean 0 and mean square 1; in mode range such a signal becomes an increasing affine image with minimum 0 and maximum 1. All are idempotent. Zero signals (peak) and constant signals (range) give no finite sample; empty signals (peak, range) and unknown modes are a ValueError.", "quantifier": "every signal", "why_tests_cant": "Laws over all signals.", "anchors": ["sample/utils/dsp.py: normalize"]}
{"id": "C38", "title": "Decibel conversions are mutually inverse and floored", "statement": "a2db(db2a(d)) = d for every level, db2a(a2db(a)) = a for every positive amplitude; with a positive floor (or a floor in dB) every level is finite, is the level of the larger of amplitude and floor and never below the floor; both conversions are strictly increasing; adding DOUBLE_DB to a level doubles the amplitude; without a floor an amplitude that is not positive has no finite level.", "quantifier": "all reals", "why_tests_cant": "Real-valued laws.", "anchors": ["sample/utils/dsp.py: db2a, a2db, DOUBLE_DB"]}
{"id": "C39", "title": "Bisection brackets the root with halving error", "statement": "dychotomic_zero_crossing on a continuous function that changes sign between the boundaries (or is zero at one), given in either order, returns a point between the boundaries within |hi-lo|/2^(steps+1) of a zero between them; if the values at the boundaries have the same strict sign a ValueError is raised, otherwise never; the function is evaluated only between the boundaries.", "quantifier": "every function, boundaries and number of steps", "why_tests_cant": "Quantifies over functions.", "anchors": ["sample/utils/dsp.py: dychotomic_zero_crossing"]}
{"id": "C40", "title": "Overlapping windows and strided convolution are exact", "statement": "For every signal, every kernel (real or complex) that is not longer and every stride of at least one, sample j of strided_convolution is sample j*stride of the part of the convolution in which the kernel lies within the signal, and no such sample on the stride grid is missing. The windows of overlapping_windows show no memory outside of the array, are complete, and are as many as fit. A kernel longer than the signal gives an empty result or ValueError, a stride of zero ZeroDivisionError; a given output array of the wrong size is refused.", "quantifier": "every signal, kernel, window size and hop", "why_tests_cant": "Index identities for all sizes.", "anchors": ["sample/utils/dsp.py:373-490 (n_windows, overlapping_windows, strided_convolution, strided_convolution_complex_kernel)"]}
{"id": "C41", "title": "Onset detection is a function of its inputs and marks exactly the onsets", "statement": "For every detection function (NaN included) and all parameters, the result of onset_selection does not depend on uninitialised memory. For every finite detection function, radius w >= 1 and multiplier m, frame n is selected iff it is a local maximum of the detection function within w frames, its normalised value exceeds the local average (over n - m w to n + w) by delta, and it is not below the feedback threshold at the frame before; a detection function that is too short raises ValueError. Every onset of a non-empty signal is marked at a valid sample index, floor(i n / frames), and no other sample is marked.", "quantifier": "every detection function, every window and filter parameters, every content of uninitialised memory", "why_tests_cant": "np.empty contents vary between runs; tests may see zeros by luck.", "anchors": ["sample/utils/dsp.py:540-679 (local_maxima, _onset_selection_g, _onset_selection_m, onset_selection, onset_detection)"]}
{"id": "C42", "title": "Spectral flux is the total rise of magnitude", "statement": "For every time-frequency matrix, value t of the spectral flux is the sum over all frequencies of the rises of the magnitude from frame t to frame t+1; it is not negative, and zero iff no magnitude rises. There is one value less than frames.", "quantifier": "every matrix", "why_tests_cant": "Law over all inputs.", "anchors": ["sample/utils/dsp.py:493-537 (spectral_flux, spectral_flux_from_tf)"]}
{"id": "C43", "title": "Beat amplitude modulation is the modulus of the summed partials", "statement": "For every time t, the am variable of a Beat equals |a0(t) e^{i(2 pi f0(t) t+p0(t))} + a1(t) e^{i(2 pi f1(t) t+p1(t))}|, hence lies between | |a0|-|a1| | and |a0|+|a1|. Parameters are numbers or functions of time; a pair in which only the second one is a function raises ValueError.", "quantifier": "all real amplitudes, frequencies, phases (numbers or functions) and time axes", "why_tests_cant": "Trigonometric identity over the reals.", "anchors": ["sample/beatsdrop/__init__.py:85-128 (Beat)"]}
{"id": "C44", "title": "Beat frequency modulation is the instantaneous frequency", "statement": "For constant frequencies and phases, the fm variable equals the derivative of the phase of the sum of the two partials, that is Im(z'/z), wherever the sum z is not zero, also with differentiable amplitudes that declare their derivative (ModalBeat does); where z is zero, fm is not finite. An amplitude function without a derivative raises AttributeError. For frequencies that are functions of time the claim fails (witness).", "quantifier": "all parameters, all differentiable amplitudes, all time axes", "why_tests_cant": "A derivative identity.", "anchors": ["sample/beatsdrop/__init__.py:130-151 (Beat), 190-259 (ExponentialDecay, ModalBeat)"]}
{"id": "C45", "title": "Beat initial phase is the phase of the sum at time zero", "statement": "The initial phase used by the Beat model times i, exponentiated, times the modulus at time zero is the sum of the partials at time zero; so if the time axis starts at zero the first sample of the x variable is the sum of the two sinusoids. If it starts elsewhere this fails (witness).", "quantifier": "all amplitudes, phases and time axes", "why_tests_cant": "arctan2 identity in all quadrants.", "anchors": ["sample/beatsdrop/__init__.py:82-83, 153-162 (Beat)"]}
{"id": "C46", "title": "Beat parameter sorting permutes whole partials", "statement": "sort_params either leaves the two partials as they are or swaps all their parameters together; afterwards the chosen feature (the energy a^2 d/4 by default) is in the requested order; a NaN feature comes first in ascending and last in descending order. Sorting in ascending order twice is sorting once; in descending order partials with equal features are swapped every time.", "quantifier": "all parameters, features and directions", "why_tests_cant": "Mixed-up pairs only show for particular orderings.", "anchors": ["sample/beatsdrop/regression.py:48-76 (sort_params)"]}
{"id": "C47", "title": "Beat decision and output formatting", "statement": "AlmostNotABeatDecisor decides for a beat iff |f0-f1|, |a0|, |a1| all exceed th*eps, whatever the order and the association of the partials; a larger threshold never adds a beat. A beat yields two columns (f,d,a,p) each with its own partial's values, a non-beat yields the single-partial fit with phase 0; if either regression fails the track fails.", "quantifier": "all parameters, thresholds, tracks and decision functions", "why_tests_cant": "Argument-order mistakes in 8-tuples.", "anchors": ["sample/beatsdrop/decision.py:30-151", "sample/beatsdrop/sample.py:87-106"]}
{"id": "C48", "title": "Frequency scale conversions are mutually inverse", "statement": "hz2bark/bark2hz (Traunmueller, Wang), hz2mel/mel2hz (both modes), hz2cams/cams2hz (both degrees) are mutually inverse: forward for all non-negative frequencies, backward for all scale values other than the limit of the formula (26.28 Bark, 43 Cams; the other formulas have none). Any other mode or degree, Zwicker's for bark2hz included, is a ValueError.", "quantifier": "all frequencies in the domain", "why_tests_cant": "Real-valued identities.", "anchors": ["sample/psycho.py: hz2bark, bark2hz, hz2mel, mel2hz, hz2cams, cams2hz"]}
{"id": "C49", "title": "Frequency scale conversions are strictly increasing", "statement": "Every Hz-to-scale conversion, in every mode, gives finite, strictly increasing values on non-negative frequencies; the equivalent rectangular bandwidth is at least 24.7 Hz and strictly increasing, in both degrees.", "quantifier": "all pairs of frequencies", "why_tests_cant": "Monotonicity is universal.", "anchors": ["sample/psycho.py: hz2bark, hz2mel, hz2cams, erb"]}
{"id": "C50", "title": "Triangular mel filterbank: triangles and partition of unity", "statement": "For every increasing list of corner frequencies, mel_triangular_filterbank returns two filters less than corners; the weights of filter i lie in [0,1], are 1 exactly at its centre, 0 exactly outside its two neighbours and linear between; at every frequency the weights of all filters sum to at most one, and to exactly one between the first and the last centre. With a number of filters the corners go from the lower to the upper limit, strictly increasing and equally spaced in the transformed scale (the Mel scale by default). With a bandwidth function, the weights of filter i are at least 1/2 exactly within half of the bandwidth of its centre. No filters at all raise ValueError.", "quantifier": "every frequency axis, corner list, number of filters, limits, increasing transform, bandwidth function", "why_tests_cant": "Universal over frequencies and filterbanks.", "anchors": ["sample/psycho.py:1008-1089 (mel_triangular_filterbank)"]}
{"id": "C51", "title": "Gammatone envelope peaks at its group delay", "statement": "For every order n >= 1 and positive bandwidth, the envelope of a gammatone filter is zero before the leading time, positive after it, increases up to the group delay, decreases after it, and attains its maximum at the group delay only; with the default leading time the group delay is zero; setting the group delay has exactly that effect. The analytic response has the response as its real part and the envelope as its modulus. A normalised impulse response that is not zero has energy a^2 (one by default).", "quantifier": "all orders n >= 1, bandwidths b > 0, leading times, phases, times", "why_tests_cant": "Optimisation over all times.", "anchors": ["sample/psycho.py:403-505, 581-699 (GammatoneFilter)"]}
{"id": "C52", "title": "Filterbank convolution is aligned, complete and consistent with its strided version", "statement": "For every bank of impulse responses, signal and method, sample n of row i of PrecomputedIRBank.convolve is sample n of the full convolution with response i, delayed so that the time origins of all responses coincide; nothing is cut off. With a stride s of at least one and responses that do not all end at the first sample, sample q of row i is sample q*s of that, except for at most one sample per row behind the last computed one, which is zero; no exception if the delay is a multiple of the stride. The real part of the output of an analytic bank is the output of the bank of the real parts. A stride excludes a method and a complex input (ValueError).", "quantifier": "every set of impulse responses, delays, input, method and stride", "why_tests_cant": "Offsets and paddings differ per filter; index arithmetic for all sizes.", "anchors": ["sample/psycho.py:762-869 (PrecomputedIRBank)"]}
{"id": "C53", "title": "lp_distance is a metric", "statement": "For an exponent p >= 1, lp_distance of arrays of one shape (floats, complex numbers, or integers with an integer p) is a finite number, not negative, zero iff the arrays are equal, symmetric, and satisfies the triangle inequality; it is the l^p distance of the entries. For 0 < p < 1 only the triangle inequality fails; for p = inf the result is always 1 (floats and complex numbers); for p = 0 a ZeroDivisionError is raised; an integer array minus a float array is a TypeError.", "quantifier": "all real and complex arrays of any shape and exponents", "why_tests_cant": "Minkowski inequality.", "anchors": ["sample/evaluation/metrics.py:13-32 (lp_distance)"]}
{"id": "C54", "title": "Parallel multiscale loss equals sequential loss", "statement": "MultiScaleSpectralLoss gives the same result (value or exception) with a pool, for every completion order of the tasks, as without a pool: the sum of the losses of the scales, or the exception of the first scale that raises. njobs <= 0 is a ValueError. A keyword argument of the call replaces that of every scale.", "quantifier": "every loss function, list of scales and schedule", "why_tests_cant": "Schedules cannot be enumerated by tests.", "anchors": ["sample/evaluation/metrics.py:91-158 (MultiScaleSpectralLoss, multiscale_spectral_loss)"]}
{"id": "C55", "title": "Random beat generator respects its limits", "statement": "For every outcome of the random draws and consistent parameters (a simple condition that the defaults meet), BeatsGenerator.freqs gives three frequencies in [f_min,f_max], the first two of which differ by a beat in [beat_min,beat_max], while the third differs from the first by a number of Bark in [delta_min,delta_max]; decays are at least decay_min; amplitudes are not negative, sum to sine_amp and differ by at most amp_min decibel; sine_amp and noise_amp sum to one with ratio snr. With size=n, a list of n such samples is drawn.", "quantifier": "all consistent parameters, all random draws, all sizes", "why_tests_cant": "The claim is about every possible outcome of the generator.", "anchors": ["sample/evaluation/random.py:11-213 (BeatsGenerator)"]}
{"id": "C56", "title": "Parallel track fitting equals sequential fitting under every schedule", "statement": "SAMPLE.fit maps its per-track function over the tracks; with any pool or any n_jobs that is not negative and any order in which workers finish and the main loop polls, the results are those of the sequential mapping, in the order of the tracks, or the exception of the first failing track; once all workers have finished the loop ends; the reported progress never decreases. A negative n_jobs without a pool is a ValueError.", "quantifier": "every list of tasks, every number of workers, every schedule", "why_tests_cant": "Schedules cannot be enumerated by tests.", "anchors": ["sample/_training.py: FitArgs.starmap_progress, _progress_starmap, sample_training_context"]}
{"id": "C57", "title": "Managed storage is restored even on errors", "statement": "Replacing an estimator's storage by a managed one for the time of a parallel fit is undone on success and on exceptions; results are copied back on success only.", "quantifier": "every outcome of the body", "why_tests_cant": "Crash points.", "anchors": ["sample/_training.py: _wrap_as_managed"]}
{"id": "C58", "title": "Trim bounds are always valid", "statement": "After any sequence of operations in the load tab (loading, typing in the entries, set_trim, mouse drags, toolbar), with any values including NaN, infinities and mouse positions outside of the axes, 0 <= start < stop <= audio size holds whenever there are trim bounds, if onset detection finds an onset in each loaded file; so the region played and analysed has stop-start >= 1 samples. set_trim clamps the given index and leaves the other bound; a drag moves the bound closer to the press; automatic trimming selects the first longest region between onsets (or the end); reloading the GUI (sample rate not zero) gives valid bounds, and the same ones if the times shown in the entries are exact. If no onset is found, loading raises and keeps the old bounds, which may then exceed the new audio.", "quantifier": "every sequence of operations with any values, every onset detection", "why_tests_cant": "Histories of user operations are unbounded.", "anchors": ["sample/widgets/audioload.py:64-76,119-300 (AudioLoadTab)", "sample/widgets/utils.py:88-112"]}
{"id": "C59", "title": "Non-blocking lock admits one analysis at a time", "statement": "At most one analysis callback is between acquisition and release of the lock; others are refused without waiting (each callback ends within six steps of its own, whatever the others do) and do not touch the lock, the model or the plot; the lock is released on every exit path, also for exceptions while making the model, fitting or drawing; a callback that has made a model draws this model.", "quantifier": "every interleaving of any number of callbacks, every exception", "why_tests_cant": "Interleavings.", "anchors": ["sample/widgets/analysis.py:17-32 (_non_block_lock)", "sample/widgets/analysis.py:207-229 (AnalysisTab.analysis_cbk)"]}
{"id": "C60", "title": "Settings parsers return values of their domain", "statement": "For every text: try_float returns the number or 0; custom_bool is False exactly for \"\", \"f\", \"false\" (any case) and zero; float_clip returns a number within those bounds that are given, the lower not above the upper (NaN becomes a bound if there is one), or for a text that is no number the default if given, otherwise a number within the bounds; strip_time_parse returns None or a positive number, except that NaN passes; custom_positive_int returns an integer of at least 1 or the default, except that NaN and infinity raise.", "quantifier": "every text, every conversion of texts to floats", "why_tests_cant": "All inputs.", "anchors": ["sample/widgets/settings.py:18-138"]}
{"id": "C61", "title": "Window size post-processing terminates with valid sizes", "statement": "next_power_of_2 returns the least power of two that is not less than the integer part of the number and 1. The loop of postprocess_windows ends within three rounds if the Blackman window is available for every size of at least one (otherwise it may go on forever). If moreover get_window raises nothing but ValueError, then for sizes of at least one the window size is the smaller one of requested size and FFT size, the type the requested one or Blackman, and the window is the one of that type and size. With an FFT size below one, where get_window raises ValueError for that size, the window gets the size 4096.", "quantifier": "all sizes, types and window functions as stated", "why_tests_cant": "Termination and minimality for all integers.", "anchors": ["sample/widgets/settings.py:132-138 (next_power_of_2)", "sample/widgets/settings.py:168-194 (postprocess_windows)"]}
{"id": "C62", "title": "Versions are totally ordered and the changelog is sorted by them", "statement": "_version_compare is a total order: numerical component by component, a proper prefix first. The changelog lists exactly the files with a version, each once, newest first, equal versions in the given order (file names distinct). For a version of numbers joined by dots, possibly followed by other text that does not begin with a dot or underscore, extract_changelog looks for a file that make_changelog reads with separator \"_\" as those numbers; it writes all of its lines but the first. (A version such as 2.1.0.dev1 gives the name v2_1_0_.md.)", "quantifier": "all pairs and triples of versions, all directories", "why_tests_cant": "Laws over all version triples.", "anchors": ["scripts/utils/make_changelog.py:75-126", "scripts/utils/extract_changelog.py:49-67"]}
{"id": "C63", "title": "End to end: every track sample is a refined spectral peak of its own frame", "statement": "For a usable window and input, SinusoidalModel.fit succeeds, analyses the documented number of frames, keeps one stored spectrum and peak list per frame when storage is on, and every (frequency, magnitude) sample of every reported track at frame k is a refined local maximum above the threshold of the k-th spectrum (of the reversed input for reverse trackers), with a frequency strictly between 0 and half of the sampling rate. An input shorter than one window gives no tracks or a ValueError.", "quantifier": "every input, window, FFT size, hop, sampling rate, tracker configuration, and every spectrum function and sort result", "why_tests_cant": "A test sees finitely many sounds; the composition of framing, FFT buffer, peak picking, refinement, tracking and merging must keep the frames and units straight for all of them.", "anchors": ["sample/sms/sm.py: SinusoidalModel.fit, time_frames, dft_frames, tracks_", "sample/sms/dsp.py: dft, peak_detect_interp"]}
{"id": "C64", "title": "Keyword arguments of fit: only current parameter names count", "statement": "SAMPLE.fit(x, **kwargs) sets exactly those keyword arguments that are names of parameters of the model, to exactly the given values, and leaves every other parameter alone; a keyword that is neither a parameter nor one of n_jobs, mp_manager, pool, _fit_args changes nothing (neither the parameters nor the training context) and raises nothing, also when it is misspelt or uses a deprecated parameter prefix that the constructor still honours.", "quantifier": "every set of parameters, every set of keyword arguments", "why_tests_cant": "the keywords are an open-ended dictionary; a test sees a few names", "anchors": ["sample/sample.py: SAMPLE.fit", "sample/_training.py: sample_training_context"]}
{"id": "C65", "title": "Decay times follow the trend of the track", "statement": "When the linear regression of a track decreases (increases), every hinge slope that a bound-respecting solver returns for the default bounds is negative (positive) and within a factor of 8 of the linear slope; hence the decay time of the mode is positive (negative) and within a factor of 8 of the one of the linear trend in forward time. Tracks of the modal tracker that were never merged never have an increasing trend; merged ones can, and then the mode gets a negative decay time.", "quantifier": "every track, every bound-respecting solver", "why_tests_cant": "the solver is a black box over the reals; tests see the slopes of a few signals", "anchors": ["sample/hinge.py: HingeRegression.fit, _default_bounds, _default_coeffs_init", "sample/sample.py: _fit_track", "sample/sms/mm.py: ModalTracker.track_ok, deactivate"]}
{"id": "C66", "title": "The progress callback counts calls and leaves no bar open", "statement": "After every history of calls and resets of a TqdmCallback: no error occurs; all bars it made are closed except the current one, which exists iff there have been calls since the last reset; the current bar counts exactly those calls, has the given total, and shows the stage 'randomize' while they are at most the number of initial points and 'minimize' after.", "quantifier": "every history of calls and resets, every number of calls and of initial points", "why_tests_cant": "The claim quantifies over every history, input and environment behaviour; unit tests run a few.", "anchors": ["sample/optimize.py: TqdmCallback"]}
{"id": "C68", "title": "Concurrent appends to an initialised storage are safe", "statement": "If the key is already present in the storage, any interleaving (line by line) of any number of OptionalStorage.append calls at different places raises no exception, terminates within ten steps per call, stores every value at its place and disturbs no other place. On a fresh storage this is false: values can be lost and a KeyError can be raised.", "quantifier": "every number of calls, every interleaving", "why_tests_cant": "races depend on the schedule; tests see the schedules that happen", "anchors": ["sample/utils/learn.py: OptionalStorage.append", "sample/beatsdrop/decision.py: BeatDecisor.track_params", "sample/_training.py: _wrap_as_managed"]}
{"id": "C69", "title": "Whole fit: every reported mode is a physical mode of a reported track", "statement": "For a usable window and input, SAMPLE.fit with the default regressor (any solver that respects its bounds) and default frequency reduction succeeds, with or without a pool and under any schedule of the pool, and gives a 3-row matrix whose columns are, in order, a subsequence of the tracks of the sinusoidal model: the frequency is the mean of the track, strictly between 0 and Nyquist and within the frequency bounds of the modal tracker; the amplitude is positive; the decay is finite and not zero, and follows the least-squares trend of the track in forward time within a factor of 8; tracks with a trend other than zero are never dropped; tracks of the modal tracker that were never merged do not grow.", "quantifier": "every signal, window, parameters, FFT, solver, pool schedule", "why_tests_cant": "an end-to-end property of unbounded inputs; tests see a few synthetic signals", "anchors": ["sample/sample.py: SAMPLE.fit, _preprocess_track, _fit_track", "sample/hinge.py: HingeRegression", "sample/_training.py", "sample/sms/sm.py", "sample/sms/mm.py"]}
{"id": "C70", "title": "Function variants dispatch to the last registered function", "statement": "A call of a function with variants runs the function last registered under the given option (or the default option), without the option argument and with all other arguments; the decorated function counts as registered first when 'this' is given; an option that is not registered is a ValueError.", "quantifier": "every history of registrations, every option, every keyword dictionary", "why_tests_cant": "The claim quantifies over every history, input and environment behaviour; unit tests run a few.", "anchors": ["sample/utils/__init__.py: function_with_variants, function_variant"]}
{"id": "C71", "title": "Adding a keyword argument keeps signatures valid", "statement": "add_keyword_arg turns a valid signature into a valid one (kinds in order, distinct names, defaults last): the new parameter is keyword-only, the only one of its name, last but for **kwargs; the other parameters are kept in order.", "quantifier": "every valid signature and name", "why_tests_cant": "The claim quantifies over every history, input and environment behaviour; unit tests run a few.", "anchors": ["sample/utils/__init__.py: add_keyword_arg"]}
{"id": "C72", "title": "Operators made from NumPy functions are unique per name", "statement": "In every history of attribute reads of a Numpy2Paragraph object, two successful reads return the same operator iff they are for the same name, and a read fails iff NumPy lacks the name.", "quantifier": "every history of reads", "why_tests_cant": "The claim quantifies over every history, input and environment behaviour; unit tests run a few.", "anchors": ["sample/utils/__init__.py: Numpy2Paragraph"]}
{"id": "C73", "title": "Mel spectrograms keep energy and scale with level", "statement": "For every bank of triangular filters with increasing corners, every exponent p > 0 and every STFT frame, the Mel magnitudes are not negative; the sum of their p-th powers is at most that of the STFT magnitudes, with equality if the frame is zero outside of the first and last centre. Scaling the STFT by a factor scales the Mel magnitudes by its modulus. Without exponent, the complex output is linear in the frame. A frame of a wrong size raises ValueError, an exponent of zero ZeroDivisionError.", "quantifier": "every STFT, frequency axis, number of filters, exponent", "why_tests_cant": "Energy conservation is a statement over all spectra and filter layouts; tests compare single spectrograms with stored values.", "anchors": ["sample/psycho.py:1092-1127 (stft2mel)"]}
{"id": "C74", "title": "t60 of a gammatone filter", "statement": "For every order n >= 1, positive bandwidth and negative floor there is exactly one time after the peak at which the envelope has fallen to the floor. If it is in the range that is searched, t60 returns a time within (distance + initial range)/2^(steps+1) of it, otherwise it raises ValueError; if a tolerance is given, the level at the returned time is within it, or the convergence exception is raised. With the default arguments and an order from 2 to 10000, t60 never fails, and the level at the returned time is within 0.001 dB of -60 dB. For order 1 with the default range it always raises ValueError. ir_size covers the time up to the next zero or extremum of the carrier after t60.", "quantifier": "every order, bandwidth, leading time, floor, range, number of steps and starts, sample rate", "why_tests_cant": "Convergence of a search with restarts for all parameters is not decidable by sampling parameters.", "anchors": ["sample/psycho.py:507-579 (GammatoneFilter.t60, ir_size)"]}
{"id": "C75", "title": "Centre frequencies of a gammatone filterbank", "statement": "For every strictly increasing transform with its inverse, limits lo < hi and number of filters n, there are n centre frequencies, strictly increasing, strictly between the limits, equally spaced in the transformed scale: neighbours are D/(n+1) apart, the first is half of that above the lower limit, the last one and a half of that below the upper limit. For the default ERB-rate scale and 0 <= lo, without a given number, the least number is chosen for which the spacing is at most half a unit of the scale.", "quantifier": "every transform, limits and number of filters", "why_tests_cant": "Quantifies over all transforms, limits and numbers of filters.", "anchors": ["sample/psycho.py:721-739 (GammatoneFilterbank.__init__)"]}
{"id": "C76", "title": "Cochleagrams are the aligned filter responses", "statement": "For every list of filters that have a decay time and a response of at least one sample, every sample rate and every non-empty signal, cochleagram returns one row per filter, in the order of the returned frequencies, with one delay common to all rows (the greatest leading time in samples): each sample is the half-wave rectified convolution of the signal with the sampled response of the filter, which is cut at its end only. With analytic responses, the output is complex and not rectified, and half-wave rectifying its real part gives the ordinary cochleagram (filters not normalised). A missing sample rate raises TypeError, another analytic mode for an analytic bank ValueError.", "quantifier": "every list of filters, signal, sample rate, method", "why_tests_cant": "Alignment over all filters and signals cannot be settled by examples.", "anchors": ["sample/psycho.py:762-797, 871-936, 939-1005 (PrecomputedIRBank, precompute, hwr, cochleagram)"]}
{"id": "C77", "title": "The phase of a synthesised beat converges to the true phase", "statement": "For three times continuously differentiable amplitudes that declare their derivative, constant frequencies and phases and a sum z of the partials that is not zero on [0,T], there is a constant C such that, for every time axis that starts at 0 and increases to at most T with steps of at most h, every sample of the x variable is within C*h^2 of the real part of z: the sum of the two sinusoids.", "quantifier": "all amplitudes, frequencies, phases, and all time axes (also irregular)", "why_tests_cant": "Convergence with a uniform constant over all time axes cannot be observed in finitely many runs.", "anchors": ["sample/beatsdrop/__init__.py:79-163 (Beat.x, Beat.pm)"]}
{"id": "C78", "title": "Disambiguation of beats chooses the association with the smaller residual", "statement": "With disambiguate=True, DualBeatRegression.fit returns the parameters found by the optimiser or these with frequencies and phases exchanged, and nothing else; the residuals are the amplitude differences and freq_w times the differences of the absolute frequencies on the Mel scale (default losses); the amplitude residuals of the two are equal, and the exchanged ones are returned iff their sum of squared frequency residuals is strictly smaller. If the tracks are exactly those of a beat and the optimiser returns that beat or the wrong association of it, the returned parameters have no residual (default losses; without freq_clip their amplitude and frequency tracks are those of the data). With disambiguate=False the result of the optimiser is returned.", "quantifier": "all parameters, tracks, loss functions, optimisers", "why_tests_cant": "Quantifies over all parameters, data and optimisers.", "anchors": ["sample/beatsdrop/regression.py:404-496 (DualBeatRegression)"]}
{"id": "C79", "title": "Which tracks beat regression accepts", "statement": "With the default starting value and bounds, BeatRegression.fit calls the optimiser, with a starting value inside the bounds, iff the track has at least two points, the frequency is not constant, the magnitude is not constant or above the starting amplitude, and the trend of the magnitude decays with a decay time between eps and 100 s; otherwise ValueError. The starting value has half of the amplitude at time zero for both partials, frequencies at equal distances from the mean frequency, half of the rate of the first autocorrelation peak away (or equal to it without a peak), and the decay time of the trend. If the optimiser respects the bounds, the resulting amplitudes are not negative and the decay times positive and at most 100 s. With any other starting value and bounds, the optimiser is called, from this starting value, only if it is finite and strictly inside the bounds in all coordinates.", "quantifier": "all tracks, regressors, autocorrelograms, optimisers", "why_tests_cant": "The accepted set is described exactly for all tracks.", "anchors": ["sample/beatsdrop/regression.py:168-307 (BeatRegression)"]}
{"id": "C80", "title": "SAMPLE with beats: whole fit and resynthesis", "statement": "A successful SAMPLEBeatsDROP.fit gives the tracks of the sinusoidal model and a matrix of four rows with the entirely finite columns of each track (one or two, see C47) in the order of the tracks, whatever the pool and its schedule. It succeeds if SAMPLE.fit does and the beat regression succeeds on every track; a single track on which the regression fails makes it fail, e.g. a track with a constant frequency. predict without phases synthesises the sum of the best modes with the learned phases. NaN among the magnitudes or frequencies of a track makes the default beat regression raise ValueError.", "quantifier": "every signal, parameters, FFT, regressors, decision function, pool schedule", "why_tests_cant": "Quantifies over all signals, decision functions and schedules.", "anchors": ["sample/beatsdrop/sample.py:85-124", "sample/sample.py:152-195, 282-313"]}
{"id": "C81", "title": "Lin-log spectral loss is a pseudometric", "statement": "lin_log_spectral_loss is the lp distance of the STFT magnitudes plus alpha times the lp distance of their levels in decibel, clipped at the floor; alpha is by default one over the absolute value of the floor (1 for floors above -1 dB). It is finite, not negative, symmetric, satisfies the triangle inequality, and is zero iff the STFT magnitudes are equal. Levels below the floor do not contribute to the second term. The default multiscale loss has the same properties, with or without a pool, and is zero iff the magnitudes of the STFTs of sizes 64..2048 are equal.", "quantifier": "all signals of equal size, p >= 1, alpha >= 0, any STFT and window", "why_tests_cant": "Metric axioms quantify over all triples of signals.", "anchors": ["sample/evaluation/metrics.py:35-158"]}
{"id": "C82", "title": "Cochleagram loss is a pseudometric", "statement": "With the default post-processing and p >= 1, CochleagramLoss of signals of the same size is not negative, symmetric, satisfies the triangle inequality, and is zero iff the cochleagrams are equal; its cochleagram is that of the function cochleagram, followed by magnitudes if analytic. With analytic=\"ir\" it is defined for every two non-empty signals of the same size, and zero iff the magnitudes of the analytic responses of every filter agree at every sample; so it does not tell a signal from its opposite.", "quantifier": "all filterbanks, signals, strides, methods and analytic modes", "why_tests_cant": "Metric axioms quantify over all triples of signals.", "anchors": ["sample/evaluation/metrics.py:161-244 (CochleagramLoss)"]}
{"id": "C83", "title": "Random beat audio is noise plus three damped sinusoids of bounded amplitude", "statement": "BeatsGenerator.audio returns floor(dur*fs) samples (dur defaults to three times the mean decay): the sum of the drawn noise and of three damped sinusoids with the returned parameters, which meet the limits of C55; at every sample audio and noise differ by at most sine_amp. Audio of exactly one sample, or of negative duration, raises ValueError.", "quantifier": "all consistent parameters, all random draws, durations, sample rates", "why_tests_cant": "The claim is about every possible outcome of the generator.", "anchors": ["sample/evaluation/random.py:215-240 (BeatsGenerator.audio)"]}
{"id": "C84", "title": "Applied settings: what is shown, saved and used agrees", "statement": "Assume that get_window raises nothing but ValueError and makes Blackman windows of every size of at least one. Pressing \"Apply\" in the settings tab succeeds if no integer entry contains NaN or +infinity: the entries show the settings, which are saved if the settings file is usable, and the parameters for the analysis agree with them: FFT size a power of two, window of the type and size shown and not longer than the FFT, frequency bounds in ascending order (unless NaN), 0 jobs unless \"parallel\" is on, all other settings as shown; settings that are not parameters are not passed. The question about reloading is asked exactly if the theme in the settings file has changed. Reading fails exactly for the entries named above, and whenever the callback raises while reading or post-processing, nothing has changed.", "quantifier": "every content of the entries and of the settings file; every environment (themes, windows, number formats with round trip) as stated", "why_tests_cant": "Every combination of the contents of 22 settings.", "anchors": ["sample/widgets/settings.py:141-626 (SettingsTab)", "sample/widgets/userfiles.py:116-154"]}
{"id": "C85", "title": "Applied settings are stable and restored at the next start", "statement": "Applying again without edits changes nothing (file, entries, parameters) and asks nothing. A settings tab with readable entries that finds the saved file (usable) shows the same settings and uses the same parameters.", "quantifier": "every applied state", "why_tests_cant": "Idempotence over all inputs.", "anchors": ["sample/widgets/settings.py:462-626"]}
{"id": "C86", "title": "The evaluation script can be interrupted and resumed", "statement": "Whatever runs of the evaluation script with one output path have been made (any --n-cases, --checkpoint, --no-resume, any order in which the process pool returns results), each one interrupted anywhere, even while it writes a file (the file is then unreadable or has the first rows): every row of a readable table or checkpoint is the value of the test of its seed, and a run that comes to the end reports exactly one row for each seed below --n-cases whose test returns a value, in the order of the seeds. A run comes to the end unless a test raises, --checkpoint is 0, or the table is unreadable and there is no readable checkpoint. If it did not resume from the table, or wrote a checkpoint, the table has the reported rows at the end and there are no checkpoints; otherwise its new results are written to no file.", "quantifier": "every history of runs, arguments, schedule of the pool and point of interruption; every deterministic test", "why_tests_cant": "Every point of interruption of every history of runs and every finishing order of the pool.", "anchors": ["scripts/beatsdrop/evaluation.py:387-399 (list2df)", "scripts/beatsdrop/evaluation.py:427-543 (load_results, run_tests, save_dataframe)"]}
{"id": "C87", "title": "An interrupted evaluation loses at most one period of results", "statement": "A run of the evaluation script that resumes and writes checkpoints every p tests is interrupted after the results of a multiple of p seeds have been collected and their checkpoint written, before it deletes checkpoints; a file that was being written is left unreadable. Then the next run that resumes has all of these results and those the interrupted run had resumed, and does not test these seeds again (without --wav). This does not hold after --no-resume with old checkpoints, for an interruption of the deletion of the checkpoints, or for a checkpoint cut between two rows: there are histories that lose results.", "quantifier": "every history before, schedule of the pool, point of interruption as stated", "why_tests_cant": "Every point of interruption.", "anchors": ["scripts/beatsdrop/evaluation.py:427-543"]}
{"id": "C88", "title": "The benchmark script can be interrupted and resumed", "statement": "The benchmark script runs with one output file and the same --n-samples n > 0 and cases, any number of times, each run interrupted by Ctrl+C anywhere between two changes of the columns, or with a column extended only in part (not while the table is written), or not at all. Then the table always has n rows for each of the first m cases, for some m, with the right method, stride, duration and indices in each row. A run keeps the rows it finds, adds the times it measured in the order of the cases, and loses at most the case in progress; a run that is not interrupted has n rows for every case. The cases are all combinations of durations, strides and methods. n = 0 raises ZeroDivisionError. With another n in a later run there are cases that are never run.", "quantifier": "every history of runs, point of interruption, cases, number of samples, measured times", "why_tests_cant": "Every history and every point of interruption.", "anchors": ["scripts/cim22/performance.py:180-252 (clean_data, load_data, run_benchmarks)", "scripts/cim22/performance.py:351-363 (main)"]}
{"id": "C89", "title": "The speed-up compares with the fastest other method", "statement": "For a duration and a stride with rows for all methods, equal positive durations in the rows and positive mean time of the target: the entry of the speed-up matrix is greater than x exactly if the mean time of every other method is greater than x times the mean time of the target (so it is the ratio of the least mean time of the others and that of the target; normalisation by the duration has no effect). If a method has no rows the entry is NaN.", "quantifier": "every table of results, duration, stride and set of methods", "why_tests_cant": "Every table.", "anchors": ["scripts/cim22/performance.py:255-296 (times_matrix, compute_speedup)"]}
{"id": "C90", "title": "Formatting a notebook keeps commands and cells that need no change", "statement": "For every text, whitespace predicate and formatter: exactly the lines that are indentation, ! or %, and no newline are wrapped as a pass statement with a comment and the same indentation, and no wrapped line is a command; unwrapping a wrapped line gives the line unless it already looks like a wrapped command, and conversely. Cells that are not code, that have only whitespace (and are not empty) or # yapf: ignore in the first line are kept, and so is the number of cells. A source with lines separated by newlines, with no newline at the end and no line that looks like a wrapped command is kept if the formatter returns its argument, or raises and errors are not tagged; with tagging the message is added as one line, once. A second formatting changes nothing if the formatter is idempotent on its result and makes no command lines. The file is written exactly if a cell changes and this is no dry run.", "quantifier": "every notebook, formatter, character classes", "why_tests_cant": "Every text and formatter.", "anchors": ["scripts/utils/yapf_nbformat.py:19-22", "scripts/utils/yapf_nbformat.py:78-167 (_wrap_command_line, _unwrap_command_line, format_nb)"]}
{"id": "C91", "title": "Samples read from a WAV file of signed integers are normalised", "statement": "For a WAV file of signed integers with b bits, with one channel or any number of channels: the example script and the GUI read the same samples, one for each frame, equal to the mean of the channels divided by 2^(b-1), all at least -1 and less than 1; with equal channels they are the samples of one channel. Files of unsigned integers (8 bits) give only infinite or NaN samples in both; files of floating-point numbers are read as they are by the script, and raise ValueError in the GUI.", "quantifier": "every file contents, number of bits and channels", "why_tests_cant": "Every file contents.", "anchors": ["scripts/beatsdrop/example.py:134-140 (load_audio)", "sample/widgets/audioload.py:169-171 (load_cbk)"]}
{"id": "C92", "title": "Cropping takes one region between onsets", "statement": "In the example script, for any onsets: without bounds the audio is cropped to the longest region between an onset and the next onset or the end (the first one of them), which is the region the GUI selects; without onsets it is not cropped. With only a start inside the audio, it is cropped from there to the next onset or the end; with only an end inside the audio, from the last onset before it, or the beginning. With both bounds it is the slice, and onsets are not detected. With --no-crop it is not cropped. With only an end that is beyond the end of the audio nothing is left.", "quantifier": "every audio, result of onset detection, bounds", "why_tests_cant": "Every audio and onsets.", "anchors": ["scripts/beatsdrop/example.py:144-181 (crop_audio)"]}
{"id": "C93", "title": "The resynthesis of the example script does not exceed the threshold", "statement": "For every prediction that is not empty and threshold > 0: the output of the example script is the prediction times one gain, positive and at most 1. Without --clip no sample is above the threshold in absolute value; the gain is 1 if none was, otherwise some sample reaches the threshold. With --clip the gain is 1. An empty prediction raises ValueError.", "quantifier": "every prediction and threshold", "why_tests_cant": "Every prediction.", "anchors": ["scripts/beatsdrop/example.py:259-282 (resynth_audio)"]}
{"id": "C94", "title": "The autocorrelogram of a transform is the autocorrelation of the signal", "statement": "For every complex signal and size N > 0, fft2autocorrelogram of its two-sided transform of size N is the circular autocorrelation of the signal cropped or padded to N samples; for every real signal so is that of its one-sided transform with n = N. With nfft = N at least the length of the signal plus n minus 1, the first n lags are those of the autocorrelation without wrapping. Without n the result for an even size is the same; for an odd size one sample is missing. The magnitude gives the same result as the transform, and so does the power spectrum with power=True. From a power spectrum of numbers that are not negative, with n given, the result is real and no lag exceeds lag zero in absolute value. Sizes less than one raise ValueError.", "quantifier": "every signal, spectrum and sizes", "why_tests_cant": "Every signal and size.", "anchors": ["sample/utils/dsp.py:313-341 (fft2autocorrelogram)"]}
{"id": "C95", "title": "The Lomb-Scargle periodogram is on the bins of the transform, within the band", "statement": "For nfft > 0, fs > 0, any hpf and any lpf that is not negative: lombscargle_as_fft returns the values and frequencies k fs / nfft for k up to nfft // 2; apart from k = 0 the value is that of scipy.signal.lombscargle at that frequency if it is at least hpf and less than lpf (where given), and zero otherwise; at k = 0 it is the square of the mean, or zero if hpf is positive. f2bin of an array gives the first bin that has at least the frequency, and inverts bin2f; of a number it raises TypeError. With a negative lpf there are values that are not cut off. If the periodogram is not negative, the autocorrelogram computed from it with default sizes is real, has the least number n of samples with n / fs at least the last time, and no lag exceeds lag zero in absolute value; without a positive time it raises ValueError.", "quantifier": "every signal, times, periodogram, sizes and band", "why_tests_cant": "Every signal and band.", "anchors": ["sample/utils/dsp.py:234-264 (f2bin, bin2f)", "sample/utils/dsp.py:267-310 (lombscargle_as_fft)", "sample/utils/dsp.py:344-369 (lombscargle_autocorrelogram)"]}
{"id": "C96", "title": "Removing the trend leaves the least-squares residuals", "statement": "For every signal that is not empty and times of the same number (equal times allowed), detrend with the default model returns residuals that sum to zero, are orthogonal to the times, and have the least sum of squares among the residuals of all lines. Adding a line to the signal does not change the result; a line gives zeros. Without times they are 0, 1, 2, ... With another model the result is the signal minus the prediction. A signal that is not one-dimensional, or empty, or times of another number raise ValueError.", "quantifier": "every signal, times and estimator", "why_tests_cant": "Every signal.", "anchors": ["sample/utils/dsp.py:206-231 (detrend)"]}
{"id": "C97", "title": "What the GUI plays and exports belongs to the current model", "statement": "In every session of the GUI (any sequence of loading, trimming, analyses with or without errors, with other callbacks run while an analysis is in progress): no resynthesis that is played or exported exceeds 1 in absolute value; while no analysis is in progress it is the clipped prediction of the current model, the one whose parameters \"Export\" gives, and has the current sample rate; after an analysis that has been plotted it is the prediction for the region selected at that time until another analysis ends, or fails at once; if region length and sample rate are still the same it is the prediction for the present region. If a plot failed before, the first request computes the resynthesis for the present region. The original that is played is the selected region; it is not empty if an onset is found in each loaded file. Without audio, or without an analysis, the buttons give the message for it and change nothing. Loading another file does not discard the resynthesis of the old one: it is played at the new sample rate.", "quantifier": "every history of events, every model, prediction and exception", "why_tests_cant": "Histories of callbacks with an analysis in progress; every prediction.", "anchors": ["sample/widgets/analysis.py:129-327 (AnalysisTab)", "sample/widgets/utils.py:88-112 (DataOnRootMixin)"]}
{"id": "C98", "title": "Progress counts every item, whatever the threads do", "statement": "For any number of threads that call progress_start and progress_update of the same fit arguments, and every schedule of their steps: when no thread is inside, progress and bar are as if the calls had been made one after the other in the order in which the lock was acquired; each thread keeps its order and no call is lost; n calls of progress_update() add n; there is never a second thread inside, and as long as there is work some thread can go on. In an analysis without a pool, whichever updates the throttle skips, after every call the bar is between zero and its maximum (if it was at the start), and it is full at the end. With a pool whose last report is positive, the updates for the tracks are counted on top of it: progress exceeds the maximum, and so does the bar if the last update is not skipped.", "quantifier": "every schedule of any number of threads; every number of frames and tracks, every choice of skipped updates", "why_tests_cant": "Interleavings of threads; which updates are skipped depends on time.", "anchors": ["sample/widgets/sample.py:20-55 (_GUIFitArgs)", "scripts/beatsdrop/example.py:184-224 (ScriptFitArgs)", "sample/_training.py:37-75", "sample/sample.py:178-187"]}
{"id": "C99", "title": "The GUI is started again until its window is closed", "statement": "The main program ends exactly when a child process has put False, which happens only when the user closes a window; after every other end (reload, crash, missing display) the GUI is started again. If the settings file can be read and the child lives, closing the window ends the program. A reload (with settings that the settings tab accepts unchanged) keeps the settings, the audio and the trim bounds; the audio cache is used once. Whenever a child is killed, the settings file is as before, has the settings of the start or settings the user has applied, or cannot be read; a child that is not killed leaves a file that can be read. If the settings file cannot be read there is never a window and the program never ends, whatever the user does; each start of the GUI brings this about if it is killed while it writes the settings. A cache that cannot be read is never removed, and then each window has no tabs.", "quantifier": "every sequence of children, user events and kill points", "why_tests_cant": "Crash points, unbounded number of restarts.", "anchors": ["sample/gui.py:43-79 (run)", "sample/widgets/main.py:35-136", "sample/widgets/userfiles.py:14-154", "sample/widgets/settings.py:605-626"]}
{"id": "C100", "title": "Models share nothing and keep the parameters they are given", "statement": "In every program that makes models with constructors and clone and changes them with set_params (arguments without estimators; calls may raise): a call leaves get_params() of every model as it was, except of the one whose set_params it is. If set_params returns, every argument was a parameter and has been stored (None gives the default of a default property), and parameters neither given nor below a given one are as before; if no argument is below another one, it returns exactly if all arguments are parameters; else it raises ValueError or AttributeError. A constructor that returns gives its arguments to the new model, and every other parameter has the default of the class, whatever was done to other models. A clone has the same class, parameters and classes of parts, and shares no object with anything before. All these calls end for the classes of the package. Not claimed: set_params that raises may have stored some arguments; estimators given as arguments are shared.", "quantifier": "every program of constructor, set_params and clone calls with any arguments that are no estimators; every table of classes", "why_tests_cant": "Aliasing between models depends on the history of calls; every combination of nested names.", "anchors": ["sample/utils/learn.py:13-191 (default_property)", "sample/sample.py:75-105 (SAMPLE)", "sample/beatsdrop/sample.py:53-83 (SAMPLEBeatsDROP)", "sample/sms/sm.py:54-68,246-281", "sample/sms/mm.py:69-95,224-246", "sample/hinge.py:76-105"]}
{"id": "C101", "title": "The model of an analysis has the settings that are shown", "statement": "For all arguments none of which is below another one, sample_factory returns a new model of the class asked for and changes nothing that was there; every argument that is a parameter of that class is stored, others are ignored, intermediate results are saved unless the arguments say otherwise, and all other parameters have their defaults. With the parameters that the settings tab has stored (C84), an analysis makes a SAMPLEBeatsDROP exactly if \"beatsdrop\" is checked, with the sample rate of the audio and the FFT size, window, frequency bounds and all other settings shown (those of BeatsDROP only if it is on).", "quantifier": "every content of the settings tab, every memory, all arguments", "why_tests_cant": "Every combination of settings and names.", "anchors": ["sample/widgets/sample.py:58-89 (sample_factory)", "sample/widgets/analysis.py:219-222", "sample/widgets/settings.py:575-610"]}
{"id": "C102", "title": "The spectra drawn for beats are those of the synthesised beats", "statement": "For all frequencies, amplitudes, positive decays and phases, _beat_ft(nu, ...) returns a number: the Fourier transform at nu, an absolutely convergent integral over positive times, of the signal that additive_synth makes from the same two frequencies, decays and amplitudes and from the negated phases; with half=True that of half the analytic signal. A missing second frequency is the first plus 2 Hz, other missing values are those of the first partial. A first decay of zero raises ZeroDivisionError.", "quantifier": "all real frequencies, amplitudes, phases, all positive decays, all optional arguments", "why_tests_cant": "Equality with an integral over infinite time for all real parameters.", "anchors": ["scripts/beatsdrop/figures.py:527-562 (_exp_ft, _cos_ft, _beat_ft)", "sample/sample.py (additive_synth)"]}
{"id": "C103", "title": "Marked extrema and zero crossings are exactly those of the signal", "statement": "For every non-empty signal and whatever the uninitialised array held: _find_extrema gives one mark for each sample, set exactly for the samples that are not at an end and compare strictly with both neighbours; _find_zerox sets a mark exactly where the sample before is on the other side (positive or not). If no two neighbouring samples are equal, there is a marked minimum between two marked maxima, a marked maximum between two marked minima, and a marked extremum between two zero crossings. Two samples are on different sides of zero exactly if the number of crossings after the first up to the second is odd. An empty signal raises IndexError.", "quantifier": "every signal of any length, every content of uninitialised memory", "why_tests_cant": "Off-by-one errors at the ends, and memory that is only sometimes zero.", "anchors": ["scripts/beatsdrop/figures.py:695-709 (_find_extrema, _find_zerox)"]}
{"id": "C104", "title": "The HTML page of a model shows its parameters as they are nested", "statement": "For every model, however deep, whose class name has no \"__\", the page has balanced tags, and a reader finds on it the parameters in order, each at the depth it has, followed by those of its value; values that are models can be unfolded. Parameters with \"__\" in their names are left out, no others. The description shown for a parameter is one whose first word is its name. If the documentation of a class has a section \"Args:\" with arguments at one indentation and continuation lines indented more, there is one description for each argument, in order, with its lines joined; no line that is not empty is lost, repeated or moved. Text without backquotes is unchanged; a Sphinx role that is the last of its line is replaced by what it marks.", "quantifier": "every tree of parameters, every documentation text", "why_tests_cant": "Nesting of any depth and every text; the result is only looked at.", "anchors": ["sample/ipython.py:37-121"]}
{"id": "C105", "title": "The statistical report says what the ranks say", "statement": "For all mean ranks and a positive critical difference, the frequentist comparison is \"smaller\" if the first mean rank is less by the difference at least, \"larger\" if greater by it at least, else \"equal\", and exchanging the populations exchanges the answer. The Bayesian comparison gives the same answer whichever of the two cells of the decision matrix is filled (the other being NaN), with the same exchange. The report compares the two models in each of the six parameters, in order. The compared errors are not negative, one for each case, and, on a strictly increasing scale, zero exactly for exact estimates. Without an output path, or if there is no file of results, the report is about the data, and the next run with that path repeats it. Not claimed: if the file exists, the report is that of the file, whatever the data are.", "quantifier": "all ranks, matrices, data and files of results", "why_tests_cant": "All orders and ties of ranks; the dependence on an earlier run.", "anchors": ["scripts/beatsdrop/evaluation.py:546-721 (print_report, statistical_tests)"]}
{"id": "C106", "title": "Decision reports count each case in its class", "statement": "The decision counted for a frequency is that of the first track whose median frequency is nearest (ValueError without tracks). In the classification report the first n cases are the beats with their decisions, the other n the single partials with theirs. With --tqdm, for any number of splits, every row of the importances is written: row 2i with the tree for beats on split i, row 2i+1 with that for single partials, whatever the memory held; without --tqdm none is. The percentage of the FFT report is between 0 and 100, and 100 exactly if at least two tracks were found in every case; with no cases it raises ZeroDivisionError.", "quantifier": "all tracks, decisions, splits, importances and counts; every content of uninitialised memory", "why_tests_cant": "Every number of cases; uninitialised memory is often zero in tests.", "anchors": ["scripts/beatsdrop/evaluation.py:325-334 (test_case_decision)", "scripts/beatsdrop/evaluation.py:724-997 (decision_report, fft_report)"]}
{"id": "C107", "title": "Plotted tracks are the fitted tracks shifted by one constant", "statement": "For every sinusoidal model with non-zero rate and hop: sine_tracking_2d draws a point for each frame of each track, and all points are shifted in time by the same amount against the times SAMPLE fits the tracks at: 0 with padding, half a window to the left without; for a reversed analysis by the end of the plot minus the end of the sound, and half a window to the right without padding. It raises (ValueError) only for a reversed analysis without tracks and without saved frames. With positive rate and hop no point is before time zero, if the saved frames include those of the tracks. A track is dashed exactly if a decision was saved and is positive. sine_tracking_3d agrees for analyses that are not reversed; a reversed one is drawn backwards.", "quantifier": "all models: rates, hops, windows, padding, reversal, tracks", "why_tests_cant": "Agreement of two separately written time axes for all models.", "anchors": ["sample/plots.py:24-97", "sample/sample.py (SAMPLE._preprocess_track)"]}
{"id": "C108", "title": "Resynthesis plots draw each signal once, with its own label", "statement": "For every signal and every dictionary of models, resynthesis draws the original first (if wanted), then each model in order, each on its own axes (of which there are exactly enough), and calls foreach with its position, label and signal; each model is asked for the times i/fs of all samples. fs is the given one, else the greatest of the models, else 44100. A time-frequency plot draws the matrix between its own limits and shows the given limits, or all of the matrix; if they are not empty it is aspect_ratio times as wide as high, and so is the figure, which is resized only if no axes are given. The player gets as many samples as the signal has, all within [-1,1] unless normalised, and unchanged if they were within; there is a heading exactly if a number or text is given: the number counted from one, and the text.", "quantifier": "all signals, models, labels, limits, ratios", "why_tests_cant": "Any number of models and any samples.", "anchors": ["sample/plots.py:100-140 (tf_plot)", "sample/plots.py:162-247 (resynthesis)", "sample/ipython.py:149-200 (LabelAndPlayForeach)"]}
{"id": "C109", "title": "Playing audio: one buffer at a time, never deadlocked by calls alone", "statement": "TempAudio plays buffers through the one pygame mixer, from any number of threads. For every schedule of play calls, garbage collections (__del__) and failing mixer operations: the mixer operations of different calls never interleave (the log is a sequence of whole or failed runs: quit, init with the rate of the buffer, load the buffer, start; only the last may be unfinished), what is heard after a finished play is that buffer at its own rate, no closed buffer is loaded or started, a buffer is closed when its __del__ returns and stays closed, at most one thread is in the critical section, and there are at most seven steps for each begun call. If no collection happens in the thread that holds the lock, some step is always possible. Not claimed, as false: if __del__ is run by a collection in the thread that holds the lock, the lock is never released again.", "quantifier": "all schedules of any number of threads, collections and failures", "why_tests_cant": "Schedules, and the moment of a garbage collection, are not under the control of a test.", "anchors": ["sample/widgets/audio.py:11-60 (TempAudio)"]}
{"id": "C110", "title": "Attributes of filterbanks and beats by name", "statement": "For every filterbank, a name that neither the object nor its class has is the tuple of that attribute of each filter, in order, or an AttributeError if some filter lacks it; filters are indexed from either end. For every beat, each of the variables (and no other missing name) is a method; computing a list of variables gives, in the order asked for and with repetitions, what computing each of them gives, and KeyError exactly if a name is no variable. Not claimed, as false: before the constructor has stored its data (in copies and unpickled objects) every lookup of a missing attribute recurses without end.", "quantifier": "all banks, filters, names, graphs of variables", "why_tests_cant": "Names are any text; the state between creation and initialisation is not visible to a test of the API.", "anchors": ["sample/psycho.py:741-760 (GammatoneFilterbank)", "sample/beatsdrop/__init__.py:165-187 (Beat)"]}
{"id": "C111", "title": "widget_children visits every widget below, once, in order", "statement": "For every tree of widgets that does not change meanwhile, widget_children yields the widget at every position below the given one exactly once (and the widget itself exactly if include_root), in the order of positions: a widget before those below it, and those below an earlier child before those below a later one.", "quantifier": "all trees", "why_tests_cant": "Trees of any depth and width.", "anchors": ["sample/widgets/utils.py:120-136 (widget_children)"]}
{"id": "C112", "title": "mock_tk2ttk restores tkinter however the block ends", "statement": "For all names, also repeated ones, and every block, whatever it does to tkinter and however it ends: afterwards each given name of tkinter has the value it had before; the other names are as the block left them; the exception is that of the block, if any; or the block is not run at all and nothing of tkinter is changed. If the names are different, in tkinter and not already of mixed classes, the block is run, and inside it each of them is the attribute of sample.widgets.responsive. If the names are different, none of a mixed class, and one is not in tkinter, it is an AttributeError and the block is not run.", "quantifier": "all lists of names, states of the modules and blocks", "why_tests_cant": "Every block and every exception.", "anchors": ["sample/widgets/pyplot.py:13-33 (mock_tk2ttk)"]}
{"id": "C113", "title": "A responsive class is made once for each tkinter class", "statement": "For every history of lookups and of changes of tkinter: a name of sample.widgets.responsive is its own, else that of the first of ttkthemes, ttk and tkinter that has it, unchanged if it is no class and mixed with ResponsiveMixin if it is a class of tkinter, TypeError if that is a mixed class already; AttributeError if none has it. Two lookups of classes give the same class exactly if they find the same class of tkinter.", "quantifier": "all histories of lookups and changes, all names", "why_tests_cant": "Histories; identity of classes across the whole program.", "anchors": ["sample/widgets/responsive.py:54-81"]}
{"id": "C114", "title": "Responsive rows and columns are those asked for", "statement": "For every widget and all non-negative indices: the rows (columns) asked for, the first n or the listed ones, have weight 1, the others keep theirs; a widget without rows or columns is left as it is, with one warning for each. With a negative index it is an error, nothing is set that was not asked for, and with one in the rows no column is changed.", "quantifier": "all widgets, numbers and lists of rows and columns", "why_tests_cant": "All numbers and lists, also with repetitions and negative ones.", "anchors": ["sample/widgets/responsive.py:22-51 (ResponsiveMixin.responsive)"]}
{"id": "C115", "title": "Logarithmic spacing is geometric between its ends", "statement": "If start and stop with the offset are positive: logspace_p gives start at 0 and stop at 1, and with the offset added the point at that fraction of the geometric path; it is strictly monotone from start to stop. logspace with n values gives n numbers, the first is start, the last stop (n at least 2), the quotient of neighbours with the offset added is constant, and they are strictly ordered. For n at least 2 the tick of case i is labelled with the value of case i. A negative number of values is a ValueError; with start plus offset not positive or stop plus offset negative no value is a number.", "quantifier": "all real ends, offsets and fractions, all numbers of values", "why_tests_cant": "Real numbers; all numbers of values.", "anchors": ["scripts/cim22/performance.py:131-169 (logspace_p, logspace)", "scripts/cim22/performance.py:371-383"]}
{"id": "C116", "title": "Data shared by the tabs of the application", "statement": "For every history of assignments through any widgets, a shared attribute read through a widget is the last value assigned to that name through a widget with the same parent, and what it was before if there was none (None if it never was set). The attributes a class shares are exactly those it lists that it does not define itself.", "quantifier": "all histories of assignments, widgets, parents and names; all class bodies", "why_tests_cant": "Histories of any length.", "anchors": ["sample/widgets/utils.py:55-82 (RootProperty, DataOnRootMeta)"]}
{"id": "C117", "title": "Residuals of the beat fit compare each amplitude with the beat at its time", "statement": "For positive fs, flat times of which the last is positive, as many amplitudes, and decays other than zero: beat_regression's residual function gives one residual per time, the given amplitude converted from decibels minus the amplitude of the sum of the two partials interpolated linearly between the multiples of 1/fs before the greatest time. With positive decays and times from zero on it is within (|a0| (2/d0 + 2 pi |f0-f1|) + |a1| 2/d1)/fs of the exact one. If the greatest time is a multiple of 1/fs, the amplitude there is compared with the beat one step earlier. For a column of times, the documented shape, with flat amplitudes there is a residual for each pair, and the sum of squares depends on the order of the amplitudes in no way: the beat is compared with their mean only. No times, or none positive: ValueError; a zero decay: ZeroDivisionError.", "quantifier": "all positive rates, times, amplitudes and parameters", "why_tests_cant": "All parameters and time axes, with an error bound; a fit that compares the wrong points still converges to something.", "anchors": ["sample/beatsdrop/regression.py:126-147 (residual function)"]}
{"id": "C118", "title": "The file dialogs of the application remember the right directories", "statement": "After every history of loading and exporting: the suggested name comes from the file chosen last to be loaded (also if it could not be read); files to load are looked for in its directory, at first in the home directory; exports go to the directory of the file saved to last (also if saving failed), or else of the file chosen first to be loaded. Cancelled dialogs change nothing.", "quantifier": "all histories of loads, exports, cancellations and failures", "why_tests_cant": "Histories of any length.", "anchors": ["sample/widgets/audioload.py:148-160 (load_cbk)", "sample/widgets/analysis.py:265-327 (wav_export_cbk, export_cbk)"]}
{"id": "C119", "title": "Exports write the chosen file only, and \"Saved\" means saved", "statement": "Whatever fails while exporting: no file other than the chosen one changes; if 'Saved' is shown, the file contains exactly what was to be exported; in all other cases it has its old contents or a beginning of what was to be exported, the former only with a message of failure. Files are not replaced as a whole: for every target there is a failure after which the old contents are lost.", "quantifier": "all states, contents, names and points of failure", "why_tests_cant": "Every point at which writing can fail.", "anchors": ["sample/widgets/analysis.py:271-327 (wav_export_cbk, export_cbk)"]}
{"id": "C120", "title": "Derived file names never collide with their source", "statement": "A name made by inserting -cropped, -output or _r before the extension has the same directory and extension, differs from the name it is made from, and is equal for two texts (names) only if the texts (names) are equal. The suggested name of a WAV export has no slash and, whatever is appended, is not the name of the loaded file; that of a JSON export is the name of the loaded file exactly if the extension of that file is appended.", "quantifier": "all paths (dots, slashes, hidden files, no extension)", "why_tests_cant": "All paths, including hidden files and names with several dots.", "anchors": ["scripts/beatsdrop/example.py:178", "scripts/beatsdrop/example.py:278", "scripts/cim22/autotuning.py:177-178", "sample/widgets/analysis.py:265-311"]}
{"id": "C121", "title": "User files lie in their directory; the evaluation makes its folders first", "statement": "For a directory and a name that are not empty, the name without slash: the path of a user file ends with the name, and the folder made for it is the directory without slashes at its end. If directory or name is missing or empty, the file is neither valid nor present and nothing is raised; a valid file is present exactly if its path is a file. The evaluation script makes the directory of the results, then that of the WAV files; it fails exactly if the results are named without directory or the WAV directory is the empty text.", "quantifier": "all paths and names", "why_tests_cant": "All paths.", "anchors": ["sample/widgets/userfiles.py:30-104 (UserDir, UserFile)", "scripts/beatsdrop/evaluation.py:402-424 (prepare_folders)"]}
{"id": "C122", "title": "Well separated partials are tracked exactly", "statement": "Suppose that the peaks of all frames are those of partials such that no two partials share a peak, a partial moves by less than the allowed deviation from one frame to the next, and there are never more partials than max_n_sines. Suppose also that any other partial of the previous frame is either too far from the partial's peak, or farther from it than the partial itself, or (for a partial that begins) goes on with a louder peak. Then the plain tracker reports exactly the maximal runs of sounding frames of the partials that are long enough: each once, with its start and the frequencies, magnitudes and phases of the partial, whatever the order of equally loud peaks. The modal tracker reports exactly those that satisfy its acceptance criteria and begin in the strip, if no accepted run is followed by another one close enough in frequency to be merged.", "quantifier": "all frame sequences of any length, all partials with any number of onsets and ends, all configurations", "why_tests_cant": "Whole histories: one wrong match anywhere swaps two partials for the rest of the sound.", "anchors": ["sample/sms/sm.py:52-218 (SineTracker)", "sample/sms/mm.py:69-187 (ModalTracker)"]}
{"id": "C123", "title": "A partial that pauses is one track", "statement": "Suppose that each partial stays in a band of frequencies narrower than the allowed deviation, that the bands of different partials are at least the allowed deviation apart, and that there are never more partials than max_n_sines. Then the modal tracker, with both merge strategies, reports exactly one track for each partial that has an accepted run of frames which ended before the last frame: it goes from the start of the first such run to the end of the last one, has the samples of the partial in these runs at their frames and NaN elsewhere. An accepted run that lasts until the last frame is reported as a track of its own, never merged. With strip_t, exactly those are left out whose onset (end, in reverse mode) is late.", "quantifier": "all frame sequences of any length, all partials with any number of pauses, both strategies, both directions, all configurations", "why_tests_cant": "Whole histories with any number of pauses.", "anchors": ["sample/sms/sm.py:52-218 (SineTracker)", "sample/sms/mm.py:69-187 (ModalTracker)"]}
{"id": "C124", "title": "The magnitude and phase spectra of a frame are those of its transform, zero-phase", "statement": "For a frame and a window of the same size w, with 2 <= w <= n, `dft` succeeds and gives n // 2 + 1 magnitudes and phases. The magnitude of bin k is that of the transform of the windowed frame, with time counted from sample w // 2, in decibel and not below the machine precision. The phase of a bin that is not below the tolerance is, modulo full turns, that of the transform; otherwise it is a multiple of a full turn. Phases of neighbouring bins differ by at most half a turn, and the first phase is zero or half a turn. A windowed frame that is symmetric about the centre of a window of odd size has phases that are multiples of half a turn. A frame multiplied by c has magnitudes that differ by 20 log10 |c| where both are above the machine precision, and the same phases if c is positive and no bin crosses the tolerance.", "quantifier": "all frames, windows, FFT sizes, tolerances and gains", "why_tests_cant": "A property of a transform over all real frames; tests compare a few bins numerically.", "anchors": ["sample/sms/dsp.py:10-41 (dft)"]}
{"id": "C125", "title": "A sound that decays exponentially is analysed into tracks that decay at the same rate", "statement": "Suppose that a sound is multiplied by c (0 < |c| < 1) after every hop, as any sum of sinusoids that share an exponential decay and do a whole number of turns per hop; that the parameters are usable (2 <= window size <= FFT size, window with a non-zero sum, positive hop and sampling frequency, positive freq_dev_offset, non-negative freq_dev_slope and strip_t, one of the two merge strategies); that the analysis is unpadded and the sound is at least as long as the window; that the threshold is not below the machine precision and no bin beside a peak is below the machine precision while the peak is above the threshold; that there are not more peaks than max_n_sines; and, for the analysis from the end, that of two peaks the lower one is out of reach of the other one or lower after refinement too. Then `SinusoidalModel.fit` succeeds, with the plain and the modal tracker, forwards and backwards, and the tracks are exactly one for each local maximum of the magnitude spectrum of the earliest frame that stays above the threshold for long enough and (modal tracker) has the allowed frequency and level. Each has in all of its frames the frequency of the maximum refined on the decibel scale (less than half a bin from the bin), levels that fall from the refined level by exactly 20 log10 |c| per hop in time, and lasts as long as the bin is above the threshold.", "quantifier": "all sounds of any length with the property, all windows, hop and FFT sizes, all tracker parameters, both directions", "why_tests_cant": "A statement about the whole analysis of infinitely many sounds: window, transform, peak detection, refinement, matching of peaks and acceptance of tracks.", "anchors": ["sample/sms/sm.py:222-333 (SinusoidalModel.fit, time_frames, intermediate)", "sample/sms/dsp.py:10-110", "sample/sms/sm.py:52-218 (SineTracker)", "sample/sms/mm.py:69-187 (ModalTracker)"]}
{"id": "C126", "title": "SAMPLE.fit recovers the decay of an exponentially decaying sound exactly", "statement": "Suppose that a sound meets the hypotheses of C125 with |c| = exp(-2 h / (d fs)), d > 0 (all partials decay with the decay time d), and that the search behind the default regressor returns a point of least squared error within its bounds whenever there is one. Then `SAMPLE.fit` with the default regressor and frequency reduction succeeds, sequentially and with any pool, and the parameter matrix has exactly one column for each maximum of the spectrum of the earliest frame that sounds for long enough and is accepted by the tracker. Its frequency is the refined frequency of the maximum. If it sounds for at least three frames, its decay time is exactly d and its amplitude is twice the refined amplitude, followed back along the decay from the centre of the earliest frame to time zero; if it sounds for two frames, its decay time is between d / 8 and d.", "quantifier": "all such sounds of any length, decay time, number of partials, window, hop and FFT sizes, tracker parameters, both directions, all orders of completion of the pool", "why_tests_cant": "An exactness statement about the whole pipeline for infinitely many sounds; tests can only compare numbers within a tolerance.", "anchors": ["sample/sample.py:104-195 (_preprocess_track, _fit_track, fit)", "sample/hinge.py:43-234 (HingeRegression)", "sample/sms/sm.py:222-333 (SinusoidalModel.fit)", "sample/sms/dsp.py:10-110"]}
{"id": "C127", "title": "Analysing a resynthesis gives the decay times back", "statement": "Suppose that all modes of a fitted SAMPLE model have the same decay time d > 0, and that every frequency times the hop size is a whole multiple of the sampling frequency of the analysis. `predict` over the times 0, 1/fs, ..., (N-1)/fs with any number and order of modes and any array of starting phases succeeds and gives N samples. If the parameters of the analysis and the spectrum of the earliest frame meet the hypotheses of C125 on them (usable window, no bin beside a peak below the machine precision, enough tracks, order of close peaks in backward mode) and the search behind the default regressor finds a least point whenever there is one, then `SAMPLE.fit` of this sound succeeds, sequentially and with any pool; it finds exactly the maxima that sound long enough, every frequency found is less than half a bin from the bin of its maximum, and every mode that sounds for at least three frames has exactly the decay time d.", "quantifier": "all sets of modes of this kind, numbers and orders of modes, phases, lengths, windows, hop and FFT sizes, tracker parameters, both directions", "why_tests_cant": "A composition of synthesis and analysis over all models; a test compares a few resyntheses within a tolerance.", "anchors": ["sample/sample.py:282-313 (predict)", "sample/sample.py:338-378 (additive_synth)", "sample/sample.py:104-195 (fit)", "sample/hinge.py:43-234 (HingeRegression)", "sample/sms/sm.py:222-333 (SinusoidalModel.fit)"]}
{"id": "C128", "title": "The decay time of a track is stable under noise", "statement": "Take a track of N >= 3 frames without gaps whose levels in dB lie within eps of a straight line that falls like a sound of decay time d > 0 (any level lev at the earliest frame, any frequencies and phases, at any position, forward or backward), and let drop be the fall of that line over the track. If eps > 0, 24 eps < drop and the least-squares search behind the default regressor always comes within N eps^2 of the smallest cost in its box, then `SAMPLE` gives the track one mode. Its frequency is the mean of the frequencies of the track, its decay time D and its amplitude a are positive, |d/D - 1| <= 24 eps / drop, and the level of a exp(-2t/D) at the earliest frame differs from lev plus the level of 2 by at most 16 eps.", "quantifier": "all tracks of this kind, all noise within the bound, all positions and lengths, both directions, all searches of this precision", "why_tests_cant": "A bound over all perturbations of the levels and over all imprecise searches; a test draws a few noise samples.", "anchors": ["sample/sample.py:106-154 (_preprocess_track, _fit_track)", "sample/hinge.py:43-234 (HingeRegression)", "sample/hinge.py:14-35 (hinge_function)"]}
{"id": "C129", "title": "The tracks of a sound whose peaks last", "statement": "Take any sound at least as long as the window, and analysis parameters that can be used (unpadded, window of two or more samples within the FFT size and with a nonzero sum, hop size of at least one, positive sampling frequency, a threshold not below the machine precision, positive deviation offset and nonnegative slope; for the modal tracker, a merge strategy that is one of the known ones and a nonnegative strip time if there is one). Suppose the local maxima above the threshold in the frame e (in time order) are exactly those at the bins b of a list S with e < N(b): each maximum is there from the earliest frame on, for N(b) frames, whatever its shape and level in each frame. Suppose there are not more bins than tracks, no bin beside a maximum is below the machine precision, the refined frequency of a maximum moves by less than the allowed deviation between neighbouring frames, and the maximum of a bin is never the best continuation of another bin's track (too far, or its own track is nearer, or it has just begun while the other bin has a louder peak). Then `SinusoidalModel.fit` succeeds, forward or backward, and the tracks are, each once, exactly those of the bins b with N(b) at least the minimal length (and, for the modal tracker, accepted: mean frequency within the limits, least-squares line of the levels not rising and starting at or above the peak threshold); the track of b has the refined frequency and level of the maximum in every one of its N(b) frames, without gaps, and begins at the first analysed one of them.", "quantifier": "all sounds of this kind, all sets of bins and lengths, windows, hop and FFT sizes, tracker parameters, both trackers and directions, all orders among peaks of equal magnitude", "why_tests_cant": "A statement over every sound whose maxima persist, with the run of the tracker over all frames; a test checks single sounds.", "anchors": ["sample/sms/sm.py:298-399 (SinusoidalModel.fit, time_frames, dft_frames)", "sample/sms/sm.py:39-198 (SineTracker)", "sample/sms/mm.py:43-187 (ModalTracker)", "sample/sms/dsp.py:10-110 (dft, peak_detect, peak_refine)"]}
{"id": "C130", "title": "Frequencies and decay times of disturbed decaying partials", "statement": "Take any sound at least as long as the window and usable analysis parameters (as in C129). Suppose the local maxima above the threshold in the frame e (in time order) are exactly those at the bins b of a list S with e < N(b); around its bin, and in these frames, the magnitude spectrum is that of a partial of its own, P(b), which has a maximum at b and decays with a decay time d(b) > 0 of its own, up to a relative error of at most rho < 1 (leakage of other partials, noise, beating). Let slack(b) be three times the level of 1 - rho, divided by the height of the maximum of P(b) above its neighbours in dB, in units of bins. Suppose there are not more bins than tracks, no bin beside a maximum is below the machine precision, 2 slack(b) is less than freq_dev_offset, different partials are further apart than slack(b) + 3 slack(b'), and, for analysis from the end, a partial that ends earlier in time is out of reach of a longer one or stays quieter at that moment, with margins for the errors. Then the tracks are those of C129, with frequencies within slack(b) of the refined frequency of P(b) and levels within 5/4 of the level of 1/(1 - rho) of the straight line of the partial. If moreover eps is at least that bound, every partial that lasts for the minimal number of frames has at least three frames and falls by more than 24 eps over them, and the least-squares search behind the default regressor always comes within N(b) eps^2 of the smallest cost in its box, then `SAMPLE.fit` succeeds, sequentially and with any pool; the modes belong to different partials that last long enough, and every such partial has one (for the modal tracker, if its frequency is within the limits by slack(b) and its level above the peak threshold by 6 eps); the frequency is within slack(b) of the refined frequency of the partial, decay time D and amplitude a are positive, |d(b)/D - 1| <= 24 eps / fall, and the level of a exp(-2t/D) at the centre of the earliest frame is that of the partial plus that of 2, within 16 eps.", "quantifier": "all sounds of this kind, all sets of partials with decay times of their own, all disturbances within the bound, windows, hop and FFT sizes, tracker parameters, both trackers and directions, all searches of this precision, all pools", "why_tests_cant": "A bound over all disturbances of all sums of partials; a test analyses a few synthetic sounds and compares within a tolerance chosen by hand.", "anchors": ["sample/sample.py:104-195 (fit)", "sample/hinge.py:43-234 (HingeRegression)", "sample/sms/sm.py:298-399 (SinusoidalModel.fit, time_frames, dft_frames)", "sample/sms/sm.py:39-198 (SineTracker)", "sample/sms/mm.py:43-187 (ModalTracker)", "sample/sms/dsp.py:63-110 (peak_refine, peak_detect_interp)"]}
{"id": "C131", "title": "Peaks and modes of sums of damped sinusoids", "statement": "Take a sound that is at least as long as the window and equal to a sum of damped sinusoids Re(A(b) z(b)^m), one for each bin b of a list S, 0 < |z(b)| < 1, up to disturbances of at most nu per sample, and usable analysis parameters (as in C129). The strength of a sinusoid in a bin is |A(b)|/2 times its decay up to the frame times the response of the normalised window to the powers of z(b); the rest at b is the strength of the conjugate of its own, both sides of all other sinusoids, and nu times the sum of the magnitudes of the normalised window. Suppose the strength of each sinusoid has its maximum over b-1, b, b+1 at b, (1 + rho) times the neighbours being less than (1 - rho) times the maximum; around b the rest is at most the part rho of the strength in the frames e < N(b), where (1 - rho) times the maximum is above the threshold and the neighbours above the machine precision; in all other bins everything together is not above the threshold or the bin is on the flank of a sinusoid; and the margins of C130 between different sinusoids hold. Then the sound satisfies the hypotheses of C130 with the strengths in the earliest frame as the spectra of the partials and |z(b)|^hop as their factors, so that the modes found by `SAMPLE.fit`, sequentially or with any pool, are those of C130: with |z(b)| = exp(-2/(d(b) fs)), decay times D with |d(b)/D - 1| <= 24 eps / fall, frequencies within slack(b) of the refined frequency of the sinusoid alone, levels within 16 eps. The refined frequency of a sinusoid at the centre of a bin, z(b) = s exp(2 pi i b / n), alone is exactly b fs / n for every real window and every s, and its refined level that of its strength at b.", "quantifier": "all sums of damped sinusoids and disturbances of this kind, windows, hop and FFT sizes, tracker parameters, both trackers and directions, all searches of the stated precision, all pools", "why_tests_cant": "A statement about a continuum of sounds, windows and disturbances; a test analyses a few synthetic sounds.", "anchors": ["sample/sample.py:104-195 (fit)", "sample/hinge.py:43-234 (HingeRegression)", "sample/sms/sm.py:298-399 (SinusoidalModel.fit, time_frames, dft_frames)", "sample/sms/dsp.py:10-60 (dft, peak_detect)", "sample/sms/dsp.py:63-110 (peak_refine, peak_detect_interp)", "sample/sms/mm.py:43-187 (ModalTracker)"]}
{"id": "C132", "title": "Modes of slowly decaying sinusoids with a Hann or Hamming window", "statement": "Take the window a - c cos(2 pi i / n), 0 < c <= a, over the whole FFT size n (`scipy.signal.get_window` gives it for \"hann\" and \"hamming\"), usable analysis parameters (as in C129), and a sound at least as long that is equal, up to disturbances of at most nu per sample, to a sum of damped sinusoids at the centres of the bins of a list S, at least three bins apart and at least two away from 0 and n/2. Let s(b) = exp(-2/(d(b) fs)) be the factor per sample, (n-1)(1-s(b)) <= gamma, kappa = c/(2a) > gamma, g(b,e) half the amplitude at the beginning of the frame e, spill(e) = 2 gamma times the sum of all g(b,e) plus nu, and sigma = 3 wobble(rho) / (2 dB((1-gamma)/(kappa+gamma))) bins. Suppose (1+rho)(kappa+gamma) < (1-rho)(1-gamma); in the frames e < N(b), N(b) > 0, spill(e) <= rho (kappa-gamma) g(b,e), the level of (1-rho)(1-gamma) g(b,e) is above the threshold and (1-rho)(kappa-gamma) g(b,e) at least the machine precision; in the others spill(e) and g(b,e) + spill(e) are not above the threshold; there are not more sinusoids than tracks, 2 sigma < freq_dev_offset, 4 sigma less than three bins and, backward, sinusoids that end earlier are out of reach or quieter by the stated margin. Then the hypotheses of C131 hold, and `SAMPLE.fit`, sequentially and with any pool, under the conditions of C130 on eps, the search and the fall, gives modes of different sinusoids, one for each that lasts long enough (and, for the modal tracker, is inside its limits by the stated margins), with frequencies within sigma of b fs / n, positive decay times D with |d(b)/D - 1| <= 24 eps / fall, and amplitudes a such that the levels of a exp(-2t/D) at the centre of the earliest frame and of the sinusoid at the beginning of that frame differ by at most 16 eps - dB(1-gamma).", "quantifier": "all sizes n, all such windows, all numbers, amplitudes, phases and decay times of sinusoids, all disturbances within the bound, hop sizes, tracker parameters, both trackers and directions, all searches of the stated precision, all pools", "why_tests_cant": "An explicit error bound for a continuum of sounds and windows; a test analyses a few and compares within a tolerance chosen by hand.", "anchors": ["sample/sample.py:104-195 (fit)", "sample/sms/sm.py:298-399 (SinusoidalModel.fit, time_frames, dft_frames)", "sample/sms/dsp.py:10-60 (dft, peak_detect)", "sample/sms/dsp.py:63-110 (peak_refine, peak_detect_interp)", "sample/hinge.py:43-234 (HingeRegression)", "sample/optimize.py:62 (get_window)", "sample/widgets/settings.py:183 (get_window)"]}
{"id": "C133", "title": "Tracks do not depend on what comes later", "statement": "Take usable analysis parameters (window of 2 to n samples with non-zero sum, hop at least 1, a known merge strategy) and two recordings with a common part x, at least as long as the window if the analysis is unpadded, followed by anything (with a backward tracker: preceded by anything; then `strip_t` must be None). `fit` succeeds on both, and every track reported for the one that is over before the last of the frames inside x (1 + (c - window)/hop frames with c the length of x plus the leading zeros) is found in the other one: exactly the same track with the plain tracker, the same start and the same values, possibly followed by more, with the modal tracker (which may merge later tracks to its end). Unpadded: with the plain tracker every track of x itself, also those that go on until its end, is the beginning of a track of the longer recording; and with both trackers every track of the longer recording that is over before the last frame of x is a track of x.", "quantifier": "all recordings, continuations, earlier uses of the object, keyword arguments, windows, sizes, tracker parameters, both trackers and directions, any FFT and any argsort", "why_tests_cant": "Every recording and every continuation: a test compares a few pairs.", "anchors": ["sample/sms/sm.py:298-382 (SinusoidalModel.fit, pad_input, time_frames)", "sample/sms/sm.py:95-197 (SineTracker)", "sample/sms/mm.py:102-187 (ModalTracker)", "sample/utils/dsp.py:387-440 (overlapping_windows)"]}
{"id": "C134", "title": "Results follow the sampling frequency and the gain", "statement": "(1) Sampling frequency: analyse the same samples with c > 0 times the sampling frequency, with `freq_dev_offset`, `frequency_bounds` multiplied by c and `min_sine_dur`, `strip_t` divided by c. If the sort of the peaks reads nothing but their levels, `SinusoidalModel.fit` fails in the same cases and with the same error, saves the same intermediate results, and gives the same tracks (start, levels, phases, gaps) at c times the frequencies. `SAMPLE.fit` with a regressor and a `freq_reduce` that follow the change of units (slope times c for times divided by c; the mean does) gives the same modes in the same order at c times the frequencies, with decay times divided by c and the same amplitudes. (2) Gain: analyse a sound multiplied by g (not 0, may be negative) with `t` and `peak_threshold` raised by G = 20 log10 |g| dB, a window of 2 to n samples, both thresholds `t` and `t` + G at or above the machine precision in dB, and where in every frame the two neighbours of each peak above `t` are at or above the machine precision before and after the gain. If the sort gives the same order for levels that are all raised by G, the fit fails in the same cases and with the same error, and gives tracks with the same starts, frequencies and gaps, all levels raised by G. `SAMPLE.fit` with a regressor that follows the gain (same slope, intercept raised by G) gives the same modes in the same order, with the same frequencies and decay times and |g| times the amplitudes; the default regressor follows if the search of `scipy.optimize.least_squares` gives the raised result for the raised problem.", "quantifier": "all signals, factors, gains, windows, sizes, tracker parameters, both trackers and directions, earlier uses of the object, any FFT in (1), every schedule of the pool and numbers of jobs", "why_tests_cant": "A test compares a few recordings with a few gains; the claim is about all of them, about the cases that fail, and about every schedule of the pool.", "anchors": ["sample/sms/sm.py:298-382 (SinusoidalModel.fit)", "sample/sms/sm.py:85-197 (SineTracker)", "sample/sms/mm.py:63-187 (ModalTracker)", "sample/sms/dsp.py (dft, peak_detect_interp)", "sample/sample.py:107-195 (_preprocess_track, _fit_track, fit)", "sample/hinge.py:107-234 (HingeRegression)"]}
{"id": "C135", "title": "Silence around the sound does not change the result", "statement": "Put silence of d hops before a sound and analyse forward, or put it after the sound and analyse backward (`reverse`). Suppose that the FFT gives all bins of silence the same level (the spectrum of `dft` does), that the window has 2 to n samples, the hop is at least 1 and the sampling frequency is positive, and that in the direction of the analysis the sound begins with z zeros where window size <= z + hop (+ half a window if `padded`; so z = 0 is enough with `padded` and a hop of half a window). (1) Forward, with `strip_t` (if any) later by the duration T of the silence: `SinusoidalModel.fit` fails in the same cases and with the same error, and gives the same tracks in the same order, each beginning d frames later. `SAMPLE.fit`, with a regressor that follows the delay (same slope, line later by T: linear regression does), gives the same modes in the same order with the same frequencies and decay times, and with the amplitudes of the same envelopes later by T. (2) Backward, with the same parameters: the same tracks in the same order, and `SAMPLE.fit` gives exactly the same modes with every regressor, because times are measured from the beginning of the sound. Without enough zeros the claim is false: frames that begin in the silence contain some of the sound (witness).", "quantifier": "all sounds, lengths of silence in hops, windows, sizes, thresholds, tracker parameters, both trackers, earlier uses of the object, any such FFT, any sort, every schedule of the pool and numbers of jobs", "why_tests_cant": "A test delays a few recordings; the claim is about all delays and sounds, about the cases that fail, and about every schedule of the pool.", "anchors": ["sample/sms/sm.py:298-382 (SinusoidalModel.fit)", "sample/sms/sm.py:85-197 (SineTracker)", "sample/sms/mm.py:63-187 (ModalTracker)", "sample/sample.py:107-195 (_preprocess_track, _fit_track, fit)"]}
{"id": "C136", "title": "Number types: exact, refused, or a known overflow", "statement": "Arrays of booleans, signed or unsigned integers (8 to 64 bits) or floating-point numbers given to the functions decorated with `numpy_out`. (1) Without `out` and `dtype`, with `dtype=float`, or with a floating-point `out`, the result is a floating-point array with the documented values of the numbers, whatever their type, for `db2a`, `a2db` (with or without floor), `bin2f`, `hz2bark`, `bark2hz`, `hz2mel`, `mel2hz`, the linear `erb`, `hz2cams` and `cams2hz`, `ExponentialDecay`, `hinge_function` with positional float parameters, and `GammatoneFilter.envelope` on floating-point times. (2) The quadratic `erb`, `a_weighting(db=False)` and `modal_energy` do so if the squares of the (first) input fit its type; the quadratic `hz2cams` for integers of at least 16 bits if f + 14675 fits; the quadratic `cams2hz` if c - 43 fits; `semisum` and `semidiff` if the sum or difference fits the common type (two boolean arrays are not subtracted). Outside these conditions the value may be silently wrong: for instance `erb` of 16-bit integers from 182 Hz on is too low, `hz2cams` of 16-bit integers from 18093 to 32455 Hz is NaN, `cams2hz` of 8-bit unsigned integers below 43 is that of 256 Cams more. (3) A fraction is never truncated: an integer or boolean `out` or `dtype` raises, whatever the input. (4) The three normalisations raise `TypeError` for non-empty integer or boolean arrays, `GammatoneFilter.envelope` for integer times, `hinge_function` for integer arrays with float parameters given by keyword, `hwr` for integer arrays with a float threshold; `hwr` with the default threshold keeps an integer or floating-point type. (5) `dtype` beside `out` raises `TypeError`; lists and tuples of numbers are accepted, lists of lists raise `TypeError`. (6) With the rule of NumPy 1, a Python integer of at most 64 bits gets the narrowest type that holds it (unsigned iff it is not negative), and the common type of an array and that integer holds the integer and all numbers of the type of the array (beside booleans: if it is below 2^63).", "quantifier": "all arrays, all number types of the inputs, of `out` and of `dtype`; the rules of NumPy 1 and NumPy 2 for Python integers", "why_tests_cant": "The tests use floating-point arrays; overflow depends on the combination of function, width and value.", "anchors": ["sample/utils/__init__.py:124-212 (_result_type, numpy_out)", "sample/psycho.py:42-394", "sample/utils/dsp.py:12-132", "sample/hinge.py:14-34", "sample/sample.py:19-36"]}
{"id": "C137", "title": "Spectral peaks in floating point", "statement": "`peak_detect_interp` on a spectrum in floating point (all magnitudes representable, at most 1/(16u) bins, neighbours that differ do so by at least eta/u; u is the unit round-off, 2^-53 for doubles; eta the absolute error of underflow). (1) The same peaks are found as in exact arithmetic, none becomes NaN. (2) Every refined location is within 1/2 + u(p + 7) of its bin p, strictly between the first and the last bin, and the refined magnitude is not below that of the bin. (3) Location and magnitude differ from those of exact arithmetic by at most u(p + 10 + 2|b|/((b-a)+(b-c))) and u(8 max(b-a, b-c) + 2|b|), where a, b, c are the magnitudes around the peak. (4) The locations are strictly increasing, hence the frequencies ascend. (5) The frequencies `ploc * fs / n` in floating point are monotone in the location, not negative, and at most fs/2 for a power of two n, a representable fs and fs/2, and locations up to n/2.", "quantifier": "all inputs of representable numbers, every arithmetic that rounds to nearest with precision and smallest number as parameters (proved for IEEE rounding, ties to even, gradual underflow; doubles are an instance); no overflow", "why_tests_cant": "Rounding errors occur at inputs nobody would choose for a test; the bounds are for every input.", "anchors": ["sample/sms/dsp.py:63-109 (peak_detect, peak_refine, peak_detect_interp)", "sample/sms/sm.py:327"]}
{"id": "C138", "title": "Normalisation in floating point", "statement": "`normalize` in floating point. Mode peak, some element not zero: every result is a number of absolute value at most 1, exactly 1 for the elements of largest absolute value; signs (weakly) and order are kept; each element differs from x/peak by one rounding; normalising again changes nothing. Mode range, representable elements not all equal: results are between 0 and 1, exactly 0 for the smallest and 1 for the largest elements, order is kept, normalising again changes nothing. Both raise `ValueError` for an empty array, and give only NaN for an array of zeros (peak) or of equal elements (range). Mode rms: for any computed mean and any computed standard deviation that is not negative (zero is replaced by one), results are numbers and keep the order.", "quantifier": "all inputs of representable numbers, every arithmetic that rounds to nearest with precision and smallest number as parameters (proved for IEEE rounding, ties to even, gradual underflow; doubles are an instance); no overflow", "why_tests_cant": "Rounding errors occur at inputs nobody would choose for a test; the bounds are for every input.", "anchors": ["sample/utils/dsp.py:12-59"]}
{"id": "C139", "title": "Bisection in floating point", "statement": "`dychotomic_zero_crossing` with representable limits and f computed in any way. (1) If the computed values at the limits have opposite signs (or one is zero), the result is a representable number between the limits, and either f is computed as zero there, or it lies between two representable numbers with computed values of opposite signs whose distance is at most |lo - hi|/2^steps + 4uB + 2eta, B a bound of the absolute limits. (2) Hence, if the computed f is within e of a continuous function g, the result is that close to a point where |g| is at most e. (3) If the product of the values at the limits is at least a positive representable number, `ValueError` is raised. (4) If the product underflows it is not: for the constant 2^-600 the result is 2^-17.", "quantifier": "all functions, limits and numbers of steps; all inputs of representable numbers, every arithmetic that rounds to nearest with precision and smallest number as parameters (proved for IEEE rounding, ties to even, gradual underflow; doubles are an instance); no overflow", "why_tests_cant": "Rounding errors occur at inputs nobody would choose for a test; the bounds are for every input.", "anchors": ["sample/utils/dsp.py:153-185 (dychotomic_zero_crossing)"]}
{"id": "C140", "title": "Start values and limits of the hinge fit in floating point", "statement": "`HingeRegression` with at least two representable times, representable values (at least one) and a representable first line (k, q): the default limits computed in floating point are strict in all three parameters, contain the start values, all times are within the limits of the knee, the limits of the slope keep its sign, the start values keep k and q, so that `least_squares` does not raise, unless all times equal the same v with |v| u >= 1, or all values equal q with |q| u >= 1. In those cases the limits may coincide (2^54 in doubles).", "quantifier": "all inputs of representable numbers, every arithmetic that rounds to nearest with precision and smallest number as parameters (proved for IEEE rounding, ties to even, gradual underflow; doubles are an instance); no overflow", "why_tests_cant": "Rounding errors occur at inputs nobody would choose for a test; the bounds are for every input.", "anchors": ["sample/hinge.py:107-165"]}
{"id": "C141", "title": "Amplitude and frequency of beats in floating point", "statement": "`Beat.am` and `fm` for the amplitudes a0, a1 at a time and any computed cosine c of absolute value at most 1. (1) The computed squared half amplitude alpha^2 is never negative, so the amplitude is never NaN; it is between min(p, q) - 2u max(p, q) and (1 + 3u) max(p, q) for the computed squares p, q of half the sum and half the difference. (2) For representable amplitudes it differs from the law of cosines by at most 24u(|a0| + |a1|)^2, if underflow is below u(|a0| + |a1|) and u(|a0| + |a1|)^2. (3) The frequency is finite if the product of the amplitudes is not negative and the computed square of half their difference is positive. (4) With amplitudes of opposite signs it may be lost: for 1 and -1 + 2^-40 at c = 1, alpha^2 is computed as 0 (exactly 2^-82), and the frequency is not finite.", "quantifier": "all amplitudes and phases; all inputs of representable numbers, every arithmetic that rounds to nearest with precision and smallest number as parameters (proved for IEEE rounding, ties to even, gradual underflow; doubles are an instance); no overflow", "why_tests_cant": "Rounding errors occur at inputs nobody would choose for a test; the bounds are for every input.", "anchors": ["sample/beatsdrop/__init__.py:87-160", "sample/utils/__init__.py:257-291 (semisum, semidiff)"]}
{"id": "C142", "title": "FFT bins in floating point", "statement": "`f2bin` and `bin2f` in floating point with nfft u <= 1 and no underflow in nfft/fs and fs/nfft. (1) `f2bin` of a frequency is at most one off the exact bin, for up to 1/(10u) bins. (2) `f2bin(bin2f(b))` is b or b + 1 for b < 1/(14u), and 0 for b = 0. (3) In doubles, with the default sampling frequency and a power of two (up to 2^1000) as the size it is b, for all b up to 2^53. (4) In general it is not: bin 9 of 1000 comes back as bin 10. (5) `lombscargle_as_fft` without limits computes all bins from 1 to nfft // 2 nevertheless, if 10 u nfft <= 1.", "quantifier": "all sizes, sampling frequencies, frequencies and bins; all inputs of representable numbers, every arithmetic that rounds to nearest with precision and smallest number as parameters (proved for IEEE rounding, ties to even, gradual underflow; doubles are an instance); no overflow", "why_tests_cant": "Rounding errors occur at inputs nobody would choose for a test; the bounds are for every input.", "anchors": ["sample/utils/dsp.py:234-264 (f2bin, bin2f)", "sample/utils/dsp.py:267-310 (lombscargle_as_fft)"]}
{"id": "C143", "title": "Additive synthesis in floating point", "statement": "Each output sample of `additive_synth` (real oscillator, arrays of parameters of equal size) at time t, computed in floating point, the sum in any order and grouping, with or without fused operations, differs from the sum of a exp(-2t/d) cos(2 pi f t + phi) over the N modes by at most u times the sum of |a| exp(-2t/d) (2N + 2 + 14k + 20 pi |f t| + 48 |t/d| + 2 |phi|), plus eta (the absolute error of underflow, 2^-1075 for doubles) times 2N + the sum of |a| (6 + exp(-2t/d) (12 + 16|t| + 8|f|)); u is the unit round-off, k the error of the computed cosine (at most 1 in absolute value) and exponential in multiples of u (two if correctly rounded). Assumed: `2 * np.pi` is within a relative error u, phases are representable, N u <= 1/2, 6u|t/d| + eta(1 + 2|t|) <= 1. Without modes the sample is zero.", "quantifier": "all modes, times, phases, orders of summation; every arithmetic that rounds to nearest with precision and smallest number as parameters (proved for IEEE rounding; doubles are an instance); no overflow", "why_tests_cant": "The order of the sum and the rounding errors depend on the library and the inputs; a test compares a few samples with a tolerance.", "anchors": ["sample/sample.py:338-378 (additive_synth)"]}
{"id": "C144", "title": "Modes are selected by computed energies without noticeable loss", "statement": "For decays that are not negative and energies without underflow: (1) `modal_energy` in floating point has a relative error of at most 8u. (2) `predict` with n modes in the default order uses min(n, N) different modes; a mode left out has at most (1 + 8u)/(1 - 8u) times the energy of any mode used, and any n modes together have at most that multiple of the energy of the modes used. (3) Exact order is not guaranteed: there are two modes of doubles whose computed energies are in the wrong order.", "quantifier": "all parameter matrices, numbers of modes and valid argsorts; every arithmetic that rounds to nearest with precision and smallest number as parameters (proved for IEEE rounding; doubles are an instance); no overflow", "why_tests_cant": "A test sees a few energies far apart; near ties decide the order.", "anchors": ["sample/sample.py:19-36 (modal_energy)", "sample/sample.py:229-252 (energies_, mode_argsort_)", "sample/sample.py:304-309 (predict)"]}
{"id": "C145", "title": "Parameters of a gammatone filter: defaults, functions, assignments", "statement": "Bandwidth, leading time, phase and scale of a `GammatoneFilter` may be numbers, `None` or functions of the filter. (1) If functions read only attributes that come before their own in the order f, n, bandwidth, raw group delay, leading time, group delay/phase, every attribute resolves (with at most five nested reads) to one value: the documented default, the number, or the value of the function; the group delay with the default leading time is 0, a zero bandwidth raises `ZeroDivisionError`. (2) After `group_delay = v` the group delay is v, and after any later assignments except to the leading time or group delay it is v plus the change of the raw group delay. (3) A leading time that is a function of the group delay makes leading time, group delay and default phase a RecursionError at every depth. (4) With the default leading time and phase, the carrier has the phase -f(n-1)/b at the peak of the envelope, so that peak may be a trough of the carrier.", "quantifier": "all filters, functions as parameters, histories of assignments", "why_tests_cant": "Functions as parameters form arbitrary dependencies; the group delay is stored as a leading time, so its value depends on the history.", "anchors": ["sample/psycho.py:397-505 (GammatoneFilter)"]}
{"id": "C146", "title": "The sine tracker in floating point", "statement": "The plain `SineTracker` on peaks with representable frequencies, with computed distances, thresholds and minimum length. (1) One update never raises and pairs peaks with tracks one-to-one; paired frequencies are (exactly) closer than the computed threshold; for a peak whose computed threshold is at most half its frequency, a track that is exactly nearer than the partner (or as near and earlier) was given to a peak at least as loud, with one ranking of the peaks, and an unpaired peak is exactly below the computed threshold only for tracks given to peaks at least as loud; continued, dropped and new tracks are as in C07. (2) After any history: at most `max_n_sines` active tracks, contiguous and aligned; finished tracks have at least the computed minimum length, lie in the past, and have no NaN; consecutive frequencies differ exactly by less than the computed threshold; the samples of a frame are among the peaks of that frame, none used twice. (3) For non-negative offset (representable), slope and frequency the computed threshold is within 3u times the threshold plus 2 eta of offset + slope f, and exact for slope 0. (4) The computed minimum length is at least 2 and min_sine_dur fs/h minus e, e = 3u min_sine_dur fs/h + 2 eta (min_sine_dur + 1); it differs from the exact one by at most 1 if e < 1, and not at all if no integer is within e of min_sine_dur fs/h. (5) If the computed minimum length is the exact one, all thresholds are at most half the frequency, and no distance of two frequencies lies between computed and exact threshold, the result is that of exact arithmetic; for a constant representable threshold it is enough that all frequencies are at least twice the threshold. (6) In general it is not: with the default thresholds a jump from 970 Hz to 1000 Hz starts a new track, in exact arithmetic with the same doubles it would not; 0.1 s at 30 frames per second are 3 frames, in exact arithmetic 4.", "quantifier": "all configurations, all histories of frames, all tie-breakings of the magnitude sort; all inputs of representable numbers, every arithmetic that rounds to nearest with precision and smallest number as parameters (proved for IEEE rounding, ties to even, gradual underflow; doubles are an instance); no overflow", "why_tests_cant": "The tracker compares rounded distances with a rounded threshold; whether a rounding error swaps two tracks or breaks the invariants depends on the last bits of the frequencies of every frame.", "anchors": ["sample/sms/sm.py:20-197 (min_key, SineTracker)", "sample/sms/sm.py:318-331 (SinusoidalModel.fit)"]}
{"id": "C147", "title": "The modal tracker in floating point, whatever the numerical libraries compute", "statement": "The `ModalTracker` on peaks with representable frequencies, with computed distances, thresholds and lengths, where the results of np.mean, np.nanmean and LinearRegression are arbitrary numbers or NaN unless a clause says otherwise. (1) With a known merge strategy an analysis never raises; with an unknown one, finishing an accepted track raises KeyError and finishing a rejected one does not. (2) After any history that does not raise: at most `max_n_sines` active tracks, contiguous and aligned; finished and reported tracks have aligned arrays, lie in the past and have at least the computed minimum number of frequencies that are not NaN; neighbouring frequencies that are numbers differ exactly by less than the computed threshold; the samples of a frame are among the peaks of that frame, none used twice, also after merging. (3) An update follows the greedy matching for exact distances and the computed threshold; the finished tracks then have exactly the samples they had and those of the accepted dropped tracks. (4) Finishing a rejected track changes nothing; an accepted track is either merged (gap filled with NaN) into a track that ended earlier, whose computed difference is below the computed threshold and, if no difference is NaN, is the least (the first of equals), or appended, and then (if no difference is NaN) no earlier track is below the threshold. (5) For `single` a merge is exactly below the computed threshold, and the computed difference is exact if it is at most half the first frequency; for `average` with averages within e the decision is that of the exact averages up to 2e. (6) If average, slope and onset value are within e1, e2, e3 of the exact average and a line, an accepted track meets the limits up to these errors and a track that meets them by these margins is accepted; if all margins are larger than the errors the acceptance is that of exact arithmetic (C09). NaN rejects nothing. (7) An average of n numbers, added in any order and grouping, is within (2n+2)u mean|x| + 4 eta. (8) The tracks reported are the finished and the accepted active ones whose onset in forward time is at most the computed number of strip frames, which is within 1 of the exact one for small errors and equal to it if no integer is near. (9) For `single`, if no threshold decision and no acceptance of a track that can arise from the frames is changed by rounding, the whole analysis is that of exact arithmetic.", "quantifier": "all configurations, all histories of frames, all tie-breakings of the magnitude sort, all results of the libraries; every arithmetic that rounds to nearest with precision and smallest number as parameters (proved for IEEE rounding, ties to even, gradual underflow; doubles are an instance); no overflow", "why_tests_cant": "Averages and regressions are summed in an order that depends on the NumPy build; no test covers all results they may give for all histories of tracks.", "anchors": ["sample/sms/mm.py:18-187 (ModalTracker)", "sample/sms/sm.py:20-197 (min_key, SineTracker)", "sample/sms/sm.py:318-331 (SinusoidalModel.fit)"]}
{"id": "C148", "title": "The whole analysis in floating point: windowing, peaks, frequencies, tracks", "statement": "`SinusoidalModel.fit` with either tracker, where every operation of the package is rounded and the results of np.sum, FFT with conversion to dB, phase interpolation, sort, averages and regressions are arbitrary, except: the computed window sum is not zero, spectra have n//2+1 magnitudes that are floating-point numbers (zero or not near the range of underflow), the sort sorts; n/2+1 bins are at most 1/(16u), fs/n is not in the range of underflow. (1) The analysis succeeds with the documented number of frames. (2) For frame k the tracker gets exactly one refined peak for each strict local maximum of the k-th spectrum above the threshold, in strictly increasing order of frequency; the spectrum is that of the frame times the window divided by the computed sum (both rounded), second half first, zeros between; the result is that of the trackers of C146 and C147 for these peaks. (3) Reported tracks have aligned arrays, end within the analysed time, have at least 2 and at least ceil(min_sine_dur * frame_rate) (as computed) frequencies that are numbers, and neighbouring frequencies differ exactly by less than the computed threshold. (4) Every sample of a reported track is the refined peak of a local maximum of its own frame: frequency less than one bin away from it and within u fs/n (4j + 16 + 2|b|/((b-a)+(b-c))) of the vertex of the parabola through the three bins a, b, c at j; magnitude not below the bin and within u (8 max(b-a, b-c) + 2|b|) of the vertex; frequencies strictly between 0 and fs/2, not even reached by rounding. (5) Tracks reported at the same frame have different frequencies. (6) The result does not depend on earlier analyses. (7) A computed window sum of zero is an error; an unpadded input shorter than the window gives no tracks, or ValueError if it is shorter by more than the hop size.", "quantifier": "all parameters, signals, earlier states and library results meeting the stated conditions, all tie-breakings of the sort; every arithmetic that rounds to nearest with precision and smallest number as parameters (proved for IEEE rounding, ties to even, gradual underflow; doubles are an instance); no overflow", "why_tests_cant": "Rounding errors accumulate from the window to the tracks; a test compares a few signals on one NumPy build.", "anchors": ["sample/sms/sm.py:298-382 (SinusoidalModel.fit, tracks_, _normalized_window, time_frames)", "sample/sms/dsp.py:10-109 (dft, peak_detect_interp)", "sample/sms/sm.py:39-197 (SineTracker)", "sample/sms/mm.py:43-187 (ModalTracker)"]}
{"id": "C149", "title": "Which tracks beat regression accepts, in floating point", "statement": "`BeatRegression.fit` with the default starting value and bounds, where every operation is rounded and np.mean, db2a, the linear regressor, the autocorrelation peaks and the angle are arbitrary (floating-point numbers; amplitudes not negative; the angle between 0 and 4). (1) A track of at least two points is given to the optimiser, with a starting value strictly inside all bounds, if the computed decay time is strictly between eps and 100 s, the starting amplitude s is positive and either below all amplitudes, or amplitudes are not constant and one is above s or at most (1 - 2u) s, and two frequencies are different and differ by at least 2u M, where M is at least all frequencies, the two starting ones included, and 2u M <= 1. All amplitudes and frequencies of the track are then within the bounds and no bound of an amplitude is negative. (2) It is a ValueError, whatever the libraries compute, for less than two points, a constant frequency, constant positive amplitudes not above s, or no computed decay time between eps and 100 s. (3) The conditions of (1) cannot be dropped: 256 Hz and the double below it, or the amplitudes 1/2 and the double below it with s = 1/2, are refused although not constant.", "quantifier": "all tracks and library results meeting the stated conditions; every arithmetic that rounds to nearest with precision and smallest number as parameters (proved for IEEE rounding, ties to even, gradual underflow; doubles are an instance); no overflow", "why_tests_cant": "The strict comparisons depend on the last bit: adding a small range to a large frequency may change nothing.", "anchors": ["sample/beatsdrop/regression.py:168-307 (BeatRegression)"]}
{"id": "C150", "title": "SAMPLE.fit in floating point, from the signal to the parameter matrix", "statement": "`SAMPLE.fit` with either tracker, the default regressor and the default freq_reduce, where every operation of the package is rounded and the results of the libraries are arbitrary, except as in C148 and: linear regression gives numbers for numbers, the search of least_squares answers within bounds that pass its checks, np.mean adds in any order and divides, magnitudes in dB times u are at most 1/8, the signal has at most 1/(64u) - 2 hops, hop time and frame rate are not in the range of underflow. (1) The fit succeeds. (2) The times used for a track are within 8u(size/hop + 2) hops of the times of its frames (forward in time also for the reversed tracker) and strictly monotone, so start and bounds of each regression pass the checks of least_squares. (3) Columns are kept in the order of the tracks; only tracks whose linear trend has a computed slope of zero may be dropped. (4) The frequency of a column is positive, within (2N+34)u of the mean of the N frequencies of the track (relative error), and below fs/2 if 8(N+17)nu < 1. (5) If the linear trend has slope k < 0 then the decay time is between the rounded values of d/(8k) and d/k where d is the constant of the conversion; for k > 0 between those of d/k and d/(8k). (6) The amplitude is db2a of an intercept that is not farther from the one of the linear trend than the farthest doubled magnitude (or 1 dB if there is no distance), as computed. (7) With a pool the result is the same for every order in which tasks finish. (8) An unpadded signal shorter than the window by more than the hop size is a ValueError. (9) If the search does not end with a larger sum of squares (plus tol) than with the knee at its upper limit and the start slope and intercept, then the hinge fits the track as well as the line of the linear regression (plus tol), with residuals that are within u(4|kt| + 3|q| + |v|) + 4 eta of the exact ones of the hinge and of the line.", "quantifier": "all parameters, signals, earlier states, library results meeting the stated conditions, all schedules of the pool; every arithmetic that rounds to nearest with precision and smallest number as parameters (proved for IEEE rounding, ties to even, gradual underflow; doubles are an instance); no overflow", "why_tests_cant": "Equal times or an empty interval between bounds would make the optimiser refuse the data; both depend on rounding in every operation before.", "anchors": ["sample/sample.py:107-200 (SAMPLE._preprocess_track, _fit_track, fit)", "sample/hinge.py:107-234 (HingeRegression)", "sample/sms/sm.py:298-382", "sample/_training.py:37-48"]}
{"id": "C151", "title": "Deprecated argument names work through the whole chain of models", "statement": "A user of an older version passes arguments with their old names, e.g. `SAMPLE(sinusoidal_model__reverse=True)`, at any depth: `sinusoidal_model` is `sinusoidal` today, and max_n_sines, min_sine_dur, freq_dev_offset, freq_dev_slope, fs, h, save_intermediate (and for modal models reverse, frequency_bounds, peak_threshold, merge_strategy, strip_t) have moved to the tracker or the storage. (1) For all sets of arguments, old and new names mixed, in which no two mean the same parameter, constructors and `set_params` do what they do with the names of today in some order: same memory, same result or exception. So every argument is stored in the parameter of today, the other parameters keep their values (or defaults), and an argument that has no parameter today raises. (2) The decorators of the package do this renaming and nothing else. (3) Old names have the stated names of today, alone and below `sinusoidal_model__` or `sinusoidal__`; names of parameters of today are never changed. (4) Programs with old names reach only states that programs with new names reach, so what C100 says about them holds. (5) The calls end.", "quantifier": "all classes of the package and all tables of classes with the stated laws, all histories of constructors, set_params and clones, all arguments that are only renamed (not safe_sine_len and sine_tracker_cls, see C31)", "why_tests_cant": "Renaming happens at each level of the nested models with scikit-learn's grouping of arguments between; tests try single names, not all mixtures, orders and histories.", "anchors": ["sample/sms/sm.py:200-266 (_decorate_sinusoidal_model, SinusoidalModel.__init__, set_params)", "sample/sms/mm.py:190-246 (_decorate_modal_model, ModalModel)", "sample/sample.py:39-95 (_decorate_sample, SAMPLE)", "sample/beatsdrop/sample.py:53-73", "sample/utils/__init__.py:380-480 (deprecated_argument)"]}
{"id": "C152", "title": "Resynthesis in floating point", "statement": "`SAMPLE.predict` in the default order with the real oscillator, phases absent or an array of representable numbers, all operations rounded, decay times positive, energies without underflow, N modes with N u <= 1/2, times with 6u|t/d| + eta(1 + 2|t|) <= 1: it succeeds; it uses min(n, N) modes, and a mode left out has at most (1 + 8u)/(1 - 8u) times the energy of any mode used; each output sample is within the error of C143 of the sum of the damped sinusoids of the modes used, each with its own frequency, decay time, amplitude and phase, and at most the sum of |a| exp(-2t/d) over the modes left out farther from the sum of all modes. Audio rendered in blocks is a possible output for the whole time axis, and each part of an output is a possible output for its part of the time axis.", "quantifier": "all modes, numbers of modes, phases, time axes, valid argsorts, orders of summation; every arithmetic that rounds to nearest with precision and smallest number as parameters (proved for IEEE rounding; doubles are an instance); no overflow", "why_tests_cant": "Error bounds over all modes and times, all orders of summation of the matrix product and all ways to sort equal energies; a test sees one library and one machine.", "anchors": ["sample/sample.py:282-313 (SAMPLE.predict)", "sample/sample.py:338-378 (additive_synth)", "sample/sample.py:229-252 (energies_, mode_argsort_)"]}
{"id": "C153", "title": "Random phases: seeds, generators, blocks", "statement": "There is one ranking of the modes by the feature `order` such that, for every number of modes n and every time axis, `SAMPLE.predict(phases=\"random\", seed=k)` is the sum of the first n modes of the ranking, the j-th one with 2 pi times the j-th number of the seed's generator as its phase. Hence the output is the same at each call, modes keep their phases when n grows and the added modes only add their own sinusoids, and blocks rendered with one seed are the parts of the whole sound. With `rng` given the seed is ignored, the phases are the next numbers of the generator, which moves on by exactly the number of modes used. Phases are in [0, 2 pi), and the output never exceeds the sum of |amplitudes| (times not negative, decay times positive). An unsupported option is a ValueError whatever else is given; an unknown keyword argument with random phases is a TypeError, a negative seed a ValueError, and the generator is left as it was; without random phases those arguments are ignored. Without seed and generator blocks need not fit together, and the loss of SAMPLEOptimizer, which draws that way, may give two values for one point.", "quantifier": "all modes, orders, numbers of modes, time axes, seeds, generators, system entropy, valid argsorts", "why_tests_cant": "Every generator state, seed and number of modes; that blocks and growing numbers of modes agree is a relation between all pairs of calls.", "anchors": ["sample/sample.py:282-313 (SAMPLE.predict)", "sample/sample.py:316-378 (_random_phases, additive_synth)", "sample/optimize.py:146-171 (SAMPLEOptimizer.loss)"]}
{"id": "C154", "title": "Beat regression over any history of fits", "statement": "For a `BeatRegression` or `DualBeatRegression` with any starting values, bounds, optimiser and losses: a `fit` that returns leaves all attributes of this call, with `beat_` made from `params_`; a `fit` that raises leaves `params_` and `beat_` both as before, or both those of the optimiser if only the disambiguation raised. Hence after any history of calls `beat_` is the beat of `params_`. Even if calls are interrupted between any two assignments, parameters and beat were each found by one of the fits and there is no beat without parameters, but they can then belong to different fits. With the default starting values a fit has the same outcome whatever was fitted before, its parameters are those of the functional description (C78, C79), and `k_`, `q_` are those of the last track. `predict` at two times or more (flat or column) gives one output for each name, in order (by default the signal), each of the 25 variables being what its name says about the sum of the two partials; it is an AttributeError before any successful fit, a KeyError with an unknown name anywhere in the list, and raises for the signal or its phase at a single time.", "quantifier": "all histories of fits, failures, interruption points, data, starting values, optimisers, names and time axes", "why_tests_cant": "Every history of succeeding, failing and interrupted fits; every parameter and time.", "anchors": ["sample/beatsdrop/regression.py:107-124 (BeatRegression.__init__)", "sample/beatsdrop/regression.py:149-157 (k_, q_)", "sample/beatsdrop/regression.py:263-322 (fit, predict)", "sample/beatsdrop/regression.py:458-496 (DualBeatRegression.fit)", "sample/beatsdrop/__init__.py:79-180 (Beat graph, compute)"]}
{"id": "C155", "title": "Comparison plots show the beats that the clones found", "statement": "For every track of two frames or more and every dictionary of beat regressions that can be fitted to it, with axes for all: `beatsdrop_comparison` draws, in the i-th column, the signal (or its envelope at all samples or at the multiples of a step, always inside the signal), the track, and for the parameters that the i-th clone found the modulus and the frequency in Hz of the sum of its partials, both amplitudes and both frequencies, each under its own label, and nothing else; levels are drawn exactly above -60 dB. The first regression that cannot be fitted raises before anything is drawn. Without axes of one's own, a single regression is a TypeError and none a ValueError; too few axes are an IndexError, and axes in a list an AttributeError after everything is drawn. The label of the time axis is on the bottom row only in a transposed figure.", "quantifier": "all tracks, signals, regressions, axes and envelope steps", "why_tests_cant": "Every track, set of parameters and number of regressions; the curves are compared with the sum of partials at all times.", "anchors": ["sample/plots.py:250-406 (beatsdrop_comparison)"]}
{"id": "C156", "title": "What the modulation of a beat determines", "statement": "For all parameters of two modal beats with positive amplitudes and distinct frequencies: if `ModalBeat(...).am` agrees at eight or more equally spaced times, with less than half a period of either beat between them, then the beats have the same amplitudes, decay times, distance of the frequencies and difference of the phases (modulo whole turns), up to the order of the partials and the association of the frequencies with the amplitudes, and `am` agrees at all times; if also `fm` agrees at these times then the partials have the same amplitudes, decay times and frequencies, up to their order, and the same difference of phases. Nothing more is determined: adding the same number to both phases, whole turns to either or exchanging the partials changes neither modulation at any time. So for every loss, clipping and track the residuals of `DualBeatRegression` do not change in these cases, and those of `BeatRegression` do not even depend on the common part of the frequencies; and parameters with zero residuals (default losses, no clipping) for the track of a beat without negative instantaneous frequencies are those of the beat up to order and common phase. Above half the frame rate the distance is ambiguous.", "quantifier": "all parameters, frame distances, first frames, numbers of frames from eight on, losses and tracks", "why_tests_cant": "Holds for all real parameters of two beats at once; tests compare a few parameters.", "anchors": ["sample/beatsdrop/__init__.py:65-259 (Beat, ModalBeat)", "sample/beatsdrop/regression.py:126-147 (BeatRegression._residual_fn)", "sample/beatsdrop/regression.py:428-456 (DualBeatRegression._residual_fn)"]}
{"id": "C157", "title": "Decay into a noise floor: what the default regressor can find", "statement": "Take a track of N frames without gaps (any frequencies and phases, at any position, forward or backward) whose level falls for m hops from its earliest frame, at time t0 >= 0, like a partial of decay time d > 0 and is constant from there. Let rho = m(m+1)(3N-2m-1)/(N(N^2-1)), which is the slope of the least-squares line of the levels divided by the slope of the decay. For every search that respects its bounds `SAMPLE` gives the track one mode, with a decay time between d/(8 rho) and d/rho and an amplitude of at most the level of the partial followed back from t0 to the shortage of the intercept bounds (a closed formula in t0, the hop, N and m; `shortage`) instead of to time zero. If the search finds a point of least squared error whenever there is one and m >= 2, decay time and amplitude are exactly those of the partial if and only if 8 rho >= 1 and the shortage is not positive. In particular both are exact if the level falls over at least half of the track; if it falls over at most a sixth of a track of nine or more frames, the decay time is too long whatever the search; and if it falls over at most a quarter of a track of twenty or more frames, the amplitude is too small by a factor of at least exp(-t0/d) whatever the search.", "quantifier": "all tracks of this kind: all N, m, t0, d, levels, hop sizes, sampling rates, both directions, all searches within the bounds", "why_tests_cant": "Quantifies over all tracks and over all searches; a test has one solver and some tracks, and tolerances hide that a bound is active.", "anchors": ["sample/hinge.py:107-165 (_default_coeffs_init, _default_bounds)", "sample/hinge.py:210-234 (HingeRegression.fit)", "sample/sample.py:106-154 (_preprocess_track, _fit_track)"]}
{"id": "C158", "title": "Hinge regression: what an estimator holds after any history of fits", "statement": "A `HingeRegression` that was never fitted raises AttributeError from `predict`, `a_`, `k_` and `q_`. A call of `fit` that returns leaves `coeffs_` equal to `result_.x`, the point that the search returned for these data from the starting values of these data; if the linear regressor forgets its previous fit, the exception raised or the coefficients found are the same as for a new object, whatever was fitted before. A call that raises leaves `result_` as it was; `coeffs_` stays as it was only if the linear regressor or the initialiser raised, and otherwise holds the starting values of the failed call. In particular a fit to a single point with the default settings raises ValueError but afterwards `predict` answers with the line of the linear regressor, stopped at that point. After any history of calls, each of which may fail or be interrupted between any two assignments, `coeffs_` are the starting values or the result of one of the calls, `result_` is the result of one of them, and there is no `result_` without `coeffs_`. Whenever there are coefficients, `predict` gives k_ t + q_ up to a_ and k_ a_ + q_ from there on.", "quantifier": "all histories of calls with all data, linear regressors, initialisers, bounds functions and searches, all failures and interruption points", "why_tests_cant": "Quantifies over histories with failures and interruptions at every point and over user-supplied functions; a test fits once.", "anchors": ["sample/hinge.py:167-208 (HingeRegression.predict, a_, k_, q_)", "sample/hinge.py:210-234 (HingeRegression.fit)"]}
{"id": "C159", "title": "SAMPLE over any history: tracks, parameters, settings", "statement": "A `SAMPLE` (or `SAMPLEBeatsDROP`) model is changed by `set_params`, `fit` (which may raise anywhere or be interrupted) and assignments to `freqs_`, `decays_`, `amps_`. Before any fit, tracks and parameters raise AttributeError. A fit that returns leaves the tracks that a new sinusoidal model finds in this sound with the settings in force, and exactly the finite columns computed from these tracks; the exception or the resulting object depends on the settings only, not on earlier fits and assignments. A fit that raises leaves `param_matrix_` (so the resynthesis) as it was, keeps the new values of its keyword arguments, and leaves the tracker as it was, reset, after some first frames of the new sound, or inside one update; if the parameters of a track cannot be computed, the tracks are all those of the new sound. Failed fits, fits interrupted before the end, refused assignments and changes of settings, in any number, do not change the parameters. After any history without an interruption between the last three assignments of `fit` and with finite values assigned, the matrix has all its rows, of equal size, all finite. An assignment to a row succeeds exactly if as many values as modes, or one, are given (else ValueError), and changes this row only. A change of settings that does not touch the tracker does not change the tracks. Not guaranteed (witness): that tracks and parameters belong together after a failed fit or after a change of the tracker's settings.", "quantifier": "all histories of set_params, fit and row assignments; all sounds, settings, FFTs, sorts, per-track functions, exceptions and interruption points", "why_tests_cant": "Quantifies over histories with failures and interruptions; tests fit once and look at the result.", "anchors": ["sample/sample.py:158-227 (SAMPLE.fit, _valid_params_, freqs_, decays_, amps_)", "sample/sms/sm.py:298-336 (SinusoidalModel.fit, tracks_)", "sample/sms/sm.py:75-101 (SineTracker.reset, all_tracks_)", "sample/beatsdrop/sample.py:85-110"]}
{"id": "C160", "title": "Shapes, broadcasting and scalars in functions with an `out` argument", "statement": "Every function decorated with `numpy_out` that works entry by entry (decibel, bark, mel and cams conversions, ERB, A-weighting, gammatone envelope, half-wave rectifier, hinge function, exponential decay and its derivative, bin frequencies, modal energy, semisum and semidifference) accepts arrays with any number of axes. The result has the shape of `out` if it is given, and that of the first argument otherwise. If every argument can be broadcast into that shape, the call succeeds, every entry of the result is the formula at the corresponding entries that the arguments had before the call (also when `out` is one of the allowed arguments), the given `out` is returned (a new array otherwise) and no other array is changed. If an argument cannot be broadcast into that shape, ValueError. The result is a scalar exactly if the first argument is 0-d and no `out` is given. With no positional array argument, IndexError. So broadcasting works in one direction only: `semisum(x, y)` and `semisum(y, x)` both succeed only if the shapes are equal. `GammatoneFilter.wavefun` gives the impulse response at every entry of an array of any shape, but raises TypeError for a scalar time without `out`.", "quantifier": "all shapes, contents and sharings of arrays, all functions of the list and all their scalar parameters, `out` absent or given", "why_tests_cant": "Quantifies over all shapes, broadcasts and sharings of arguments; tests use 1-d arrays of equal size.", "anchors": ["sample/utils/__init__.py:147-212 (numpy_out)", "sample/utils/__init__.py:257-291 (_semisum, _semidiff)", "sample/psycho.py:42-394", "sample/psycho.py:581-663 (_envelope, wavefun)", "sample/utils/dsp.py:62-132,249-264", "sample/sample.py:19-36 (modal_energy)"]}
{"id": "C161", "title": "Showing the trim bounds moves them by at most one sample, in floating point", "statement": "The load tab shows the trim bounds as times; writing them into the entries converts the times back to samples, with rounding. For every sample rate up to 2^53 and every index below 2^50 (doubles): an index is read back as itself or as the one before it, never another. So whenever the bounds are shown (after loading, after a drag, after a reload of the GUI from its cache) each bound stays or moves one sample back, the region is never empty and lies in the audio; after loading a file, the bounds are those of the longest region between onsets, each at most one sample earlier. After n reloads each bound is at most n samples earlier and never later, and after finitely many reloads nothing changes any more. If the sample rate is a power of two, nothing moves. Not guaranteed (witness): that the bounds stay. At 44100 Hz a region starting with sample 15 starts with sample 14 once it is shown, and one starting with sample 88222 moves with each of five reloads.", "quantifier": "all sounds, onset detections, sample rates, valid bounds and numbers of reloads; every arithmetic with the rounding laws, doubles in particular", "why_tests_cant": "Quantifies over all indices and rates under rounding and over any number of reloads; a test with a rate such as 8000 Hz and small indices passes.", "anchors": ["sample/widgets/audioload.py:64-76,119-133,207-216,289-293", "sample/widgets/settings.py:609-623"]}
{"id": "C162", "title": "Window, hop and overlap sizes computed from fractions, in floating point", "statement": "Sizes given as fractions are products of floating-point numbers cut to integers. Window of the optimiser's remapper: a fraction in [0,1] never gives a window larger than the FFT size nor a negative size, the fraction 1 gives exactly the FFT size, and a larger fraction does not give a smaller window. Hop size: for every overlap it is between 1 and the size of the window, and a larger overlap does not give a larger hop; for an overlap in [0,1] it is at most one sample off the value without rounding, and the same value unless the product is within 4*u*m of an integer; in doubles nothing is lost for overlaps a/2^j (the default 1/2 included). Overlap of the spectral loss: for every window of 1 to 2^53 samples the transform accepts an overlap (not negative, in doubles) iff it is less than 1, however near to 1; then the frames are at least one sample and at most one window apart. Not guaranteed (witnesses): that a decimal overlap gives its hop (0.9 of 1000 samples gives 99, not 100), or that the fraction 1/n gives one sample (for 49 points the window is empty).", "quantifier": "all fractions, FFT sizes and window sizes; every arithmetic with the rounding laws, doubles where said", "why_tests_cant": "Quantifies over all fractions and sizes under rounding; tests use a few sizes that are powers of two, where nothing is rounded.", "anchors": ["sample/optimize.py:61-70 (sample_kwargs_remapper)", "sample/evaluation/metrics.py:69-82 (lin_log_spectral_loss)"]}
{"id": "C163", "title": "Onsets are marked at the exact samples, in floating point", "statement": "onset_detection computes the sample of a selected frame i as the integer part of a rounded quotient. For every signal of n samples and every detection function of f values: if f*n is at most 2^52 (doubles), the samples that are marked are exactly floor(i n / f) for the selected frames i, as without rounding. Beyond that product, for up to 2^50 frames and a signal of any size, no position leaves the signal, so there is no IndexError and the result has the size of the signal. Not guaranteed (witness): the exact sample for larger products; the last of 2^27 frames of a signal of 2^27+1 samples is marked one sample late.", "quantifier": "all signals, detection functions and selections; every arithmetic with the rounding laws, doubles in particular", "why_tests_cant": "Quantifies over all sizes under rounding; no test can try all quotients, and the first wrong one needs a signal of about an hour.", "anchors": ["sample/utils/dsp.py:672-679 (onset_detection)"]}
{"id": "C164", "title": "The random beat generator respects its limits up to rounding", "statement": "With rounding, for every outcome of the draws: a number of beta_twosides has the sign that was drawn, its absolute value is never below left, exceeds right by at most the factor 1+3u, and does not exceed it at all if right is at most twice left; the beat in Hz has the sign that was drawn and an absolute value in [(1-8u) beat_min, (1+8u) beat_max]; no decay is below decay_min; sine_amp and noise_amp are between 0 and 1 and sum to 1 up to 5u; the three amplitudes are not negative, keep the order of the drawn levels, and sum to sine_amp up to 6u sine_amp plus underflow. Not guaranteed (witness): the exact limits. With the default limits the beat can be just below 1.8 Hz.", "quantifier": "all draws and all limits that do not underflow; every arithmetic with the rounding laws, doubles in particular", "why_tests_cant": "Quantifies over all draws and limits; draws that leave the limits are too rare to be met by tests with random numbers.", "anchors": ["sample/evaluation/random.py:103-204 (BeatsGenerator)"]}
{"id": "C165", "title": "Mel spectrogram of a signal: order of the results, sizes, level, silence", "statement": "For every signal, every short-time transform (axes depend on the size of the signal only, columns of the size of the frequency axis, one column per time, homogeneous) and every exponent p > 0, mel_spectrogram returns centre frequencies, times and matrix in this order: with k >= 1 filters on the Mel scale between limits 0 <= a < b, the frequencies are k increasing numbers strictly between the limits, and the matrix has one column per time with k values, none negative, whose p-th powers sum to at most those of the column of the transform; with a filterbank given, the first result is None. A factor s on the signal multiplies the matrix by |s| and leaves both axes as they are; silence gives zeros. A filterbank of a wrong size raises ValueError. Without any option the call always raises (ValueError, or IndexError without frequencies).", "quantifier": "all signals, factors, filterbanks without negative weights, exponents p > 0; every homogeneous short-time transform", "why_tests_cant": "Level and silence are statements about all signals and factors, sizes about all transforms.", "anchors": ["sample/psycho.py:1130-1147 (mel_spectrogram)", "sample/psycho.py:1092-1127 (stft2mel)"]}
{"id": "C166", "title": "Gammatone filterbanks as objects: responses can be reused, keywords that are not known are ignored", "statement": "For every list of filters and sample rate, the bank of responses made beforehand has one response per filter and the frequencies in their order, and is complex exactly if asked for. For every signal, analytic mode, method, stride and post-processing, the cochleagram with such a bank is that of the filterbank itself, whatever sample rate is given with it; a complex bank needs no mode. GammatoneFilterbank.convolve is the matrix of that cochleagram, with the stride and the function that are given, and has one row per filter. A function given as postprocessing is applied in place of the rectification; all keyword arguments other than stride, postprocessing and filterbank change nothing and raise nothing (so the documented name postprocess has no effect); a second filterbank raises TypeError.", "quantifier": "all lists of filters, sample rates, signals, modes, methods, strides, functions and sets of keyword arguments", "why_tests_cant": "Equality of two ways to compute, over all signals and options; silence about unknown keywords is a statement about all names.", "anchors": ["sample/psycho.py:885-923 (GammatoneFilterbank.convolve)", "sample/psycho.py:741-801, 871-883 (GammatoneFilterbank, PrecomputedIRBank, precompute)", "sample/psycho.py:939-1005 (cochleagram)"]}
{"id": "C167", "title": "Notebook audio: every sample reaches its channel, templates are filled as written", "statement": "For every array of samples, WebAudio writes: for an array with one axis one channel with all samples; for an array with two axes or more, the first of size c >= 1, c channels of equal size that are, one after the other, the whole array (sample j of channel i is element i*n+j). A single number raises IndexError, zero channels ValueError. For every template of texts with doubled braces and named fields, the page has the texts as they are and each value in the place of its name, values not being looked into (braces in a label stay); a field without a value raises KeyError. Not guaranteed: an array of shape (samples, channels) is read as one channel per sample without an exception.", "quantifier": "all shapes, samples, templates, names and values", "why_tests_cant": "Shapes, templates and labels are unbounded; a label with braces or an array with many axes is not among examples.", "anchors": ["sample/ipython.py:17-34 (WebAudio)", "sample/web_audio.html", "sample/ipython.py:115-121 (CollapsibleModelParams.__init__)"]}
{"id": "C168", "title": "Settings have their own rows; a change of tab clears selections up to the first spacer only", "statement": "For every list of settings with different names, the tab holds them in this order and puts setting i into row i of the grid; a name used twice puts the next setting into the same row as the second use. For every list of settings and every selection, SettingsTab.reset_selections clears the entries before the first spacer and no others, and raises AttributeError there; without spacers it clears all, and so does a change of tab for every tab without spacers, wherever it stands. At a change of tab the GUI never raises AttributeError, never makes a selection, and leaves the loop at any other exception of an entry. With the settings of the project, whose first is a spacer, a change of tab clears nothing, whatever is selected, and reports nothing.", "quantifier": "all lists of settings and tabs, all selections, all exceptions of entries", "why_tests_cant": "Quantifies over all lists of settings and all states of the entries; the exception is swallowed, so a test of the callback passes.", "anchors": ["sample/widgets/settings.py:544-574 (reset_selections, add_setting)", "sample/widgets/settings.py:459-461 (Setting.__init__)", "sample/widgets/main.py:99-105 (SAMPLEGUI.reset_selections)"]}
{"id": "C169", "title": "Limitation of the estimated frequencies of a beat by freq_clip", "statement": "For every track of estimated frequencies that are numbers, DualBeatRegression with freq_clip=c >= 0 replaces each by the nearest number that is within c/2 interquartile ranges of the median (half of the documented multiple), where the quartiles q are those of the track itself: more than k(n-1)/4 values are at most q_k and more than (4-k)(n-1)/4 at least, and q_k of the values a, a+d, ..., a+nd in any order is a+dnk/4. The number and order of the frequencies are kept, none becomes negative, and nothing changes iff all are within the limits. For c >= 2 (default 2.5) values between the first and third quartile do not change, so fewer than (n+3)/2 do. If the middle half is constant all become the median; with c < 0 all become the same number; with None nothing changes. The limits do not depend on the order in time, and scaling (by a factor that is not negative) and shifting all frequencies does the same to the results. One time at which the frequency is not a number makes all residuals of the frequencies NaN. For exact data of a beat, the true parameters have residual zero (default losses, non-zero weight) iff all frequencies of the data are within the limits; there are exact data for which they are not with the default freq_clip. If they are, and the optimiser finds the beat or the wrong association of it, fit returns parameters with residual zero.", "quantifier": "all tracks, times, parameters of beats and values of freq_clip", "why_tests_cant": "Quantifies over all tracks and beats; that the true parameters are not a solution shows only for data with a rare deviation.", "anchors": ["sample/beatsdrop/regression.py:428-456 (_residual_fn)", "sample/beatsdrop/regression.py:361-362 (freq_clip)"]}
{"id": "C170", "title": "Levels of complex spectra and panels of the resynthesis plot", "statement": "For all complex values, complex2db without floor is 20 log10 of the modulus, minus infinity exactly for zero; levels of products add. Phases and conjugation never matter. With a floor in dB the result is always a number, the larger one of level and floor, db2a of it is the modulus raised to the floor, and a larger modulus never has a smaller level; a positive linear floor also gives numbers, a floor that is not positive gives minus infinity for zero. For every signal, transform and options, each panel of plots.resynthesis with db_floor holds the STFT matrix entry by entry in dB, all numbers, none below the floor, between the first and the last frequency; with db_floor=None it is the complex matrix; exceptions of the transform are passed on; a time-frequency function made with its own fs is a TypeError at the first panel, whatever the signal.", "quantifier": "all complex values, floors, signals, transforms and keyword arguments", "why_tests_cant": "Quantifies over all complex values and all transforms; phases and products are laws about pairs of inputs.", "anchors": ["sample/utils/dsp.py:138-150 (complex2db)", "sample/plots.py:145-159 (_stft4resynthesis)", "sample/plots.py:236-241 (resynthesis)"]}
{"id": "C171", "title": "Headings and players of the resynthesis plot in a notebook", "statement": "LabelAndPlayForeach keeps the given audio options, with normalize=False if it is not given. For every index, label and signal that is not empty, if a rate is given, the call raises nothing and makes one call of display with the heading \"<h1>i+1 - label</h1>\" and then a player of as many samples: the given ones with normalize, otherwise each limited to [-1, 1], so that the range check of IPython never fails, whatever the signal. Without a rate, as in LabelAndPlayForeach(), every call with samples is a ValueError and displays nothing, not even the heading; so is a signal without samples. Without samples only the heading is displayed, without anything nothing. As foreach of plots.resynthesis there is one display for each signal, in order and numbered from one; without a rate the first signal ends the plot.", "quantifier": "all options, indices, labels, signals and models", "why_tests_cant": "Quantifies over all signals (also beyond the range) and all numbers of models; IPython is not part of the tests.", "anchors": ["sample/ipython.py:149-200 (LabelAndPlayForeach)", "sample/plots.py:236-244 (resynthesis)"]}
{"id": "C172", "title": "Timing of code in a notebook", "statement": "For every clock, title, unit, scale and number of decimal places, time_this around code that ends normally makes one display: the title, then the message with the scaled difference of the two times and the unit in the place of its only field; doubled braces in the message become single ones, and only the difference of the times matters. If the code raises, its exception is passed on and nothing is displayed, whatever the options. Code that ended normally can still end with an exception, and without display: IndexError for a message with a second field {}, ValueError for {} with {0} or a single closing brace ({0} alone may be repeated), KeyError for a name, ValueError for a negative number of decimal places.", "quantifier": "all clocks, messages, titles, units, scales, numbers of places and outcomes of the code", "why_tests_cant": "Quantifies over all messages and outcomes of the code in the context; IPython is not part of the tests.", "anchors": ["sample/ipython.py:123-146 (time_this)"]}
{"id": "C173", "title": "Where the reports of the evaluation go", "statement": "With an output path the report file has exactly what the block of print_or_write printed, whatever was in it before; the screen and all other files are as before, and sys.stdout is the old one again after every block, also one that raises or changes sys.stdout by itself, so later text goes where it went before. If the block raises, the exception is passed on and the file has what was printed until then (the old report is lost). A file that cannot be opened: its exception, the block is not run, nothing is changed. Without a path all goes to the screen and no file is touched. Reports of different outputs have different files, the one of the statistical tests never that of the others; two reports with the same path leave the second only. The report of the statistical tests has the first line of the LaTeX text of autorank, the added line, the other lines but the last, the comparisons, the last line, and nothing of it is on the screen; if autorank raises the file is empty, if a comparison raises the last line (the end of the document) is missing.", "quantifier": "all paths, earlier contents, printed lines, blocks and exceptions", "why_tests_cant": "Quantifies over all blocks, outcomes and earlier files; the scripts are not part of the tests.", "anchors": ["scripts/beatsdrop/evaluation.py:651-660 (print_or_write)", "scripts/beatsdrop/evaluation.py:546-568,648 (print_report)", "scripts/beatsdrop/evaluation.py:718-720,742-744,993-995 (callers)"]}
{"id": "C174", "title": "Named objects", "statement": "For every object, NamedObject(o, name) can be called exactly if o can, and then does what o does, with the same arguments, results and exceptions; its obj is o, and its __name__ is the given one, or AttributeError without a name, also if o has a name. Wrapping any number of times changes neither; the last name counts. NamedCallable(o) passes callable() for every o, and calling it is a TypeError if o cannot be called. The choice between the two is made for NamedObject itself only: an instance of a subclass of NamedObject cannot be called, whatever it wraps; one of NamedCallable does what o does.", "quantifier": "all objects, names, arguments, classes and numbers of wrappings", "why_tests_cant": "Quantifies over all objects (also wrappers of wrappers) and all arguments.", "anchors": ["sample/utils/__init__.py:215-248 (NamedObjectMeta, NamedObject, NamedCallable)", "sample/beatsdrop/__init__.py:87-111 (use in the graph)"]}
{"id": "C175", "title": "Styles and colours from the theme", "statement": "For every theme, root_color gives the style of the root exactly if it is a colour and otherwise the default. With a key it gives a dictionary with at most that key, empty exactly if there is neither a colour nor a default; so no plot option is ever None, without a default every value is a colour, and the two colours of the legend are never given twice. Every widget of a plot toolbar is configured on its own by the first matching class of the remapping: an option is set to a value exactly if it is the flat relief of a button or check button, or the class maps a style to it that has this value and is not empty. Widgets of no such class are left as they are, no option is set twice for a widget and none to an empty text; a theme without styles changes the relief only.", "quantifier": "all themes, styles, defaults, keys, widgets and classes", "why_tests_cant": "Quantifies over all themes and widget trees.", "anchors": ["sample/widgets/utils.py:22-53 (root_style, root_color)", "sample/widgets/pyplot.py:45-71,98-110 (PyplotFrame)", "sample/widgets/analysis.py:187-192", "sample/widgets/audioload.py:36-38,265-270"]}
