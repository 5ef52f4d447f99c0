{
 "claims": [
  {
   "property": "C01",
   "status": "proved",
   "theorems": [
    "Verif.Tracker.C01_active_bound",
    "Verif.Tracker.C01_active_bound_modal"
   ],
   "note": "Plain and modal tracker, arbitrary histories; numbers in an ordered field, NaN peaks excluded."
  },
  {
   "property": "C02",
   "status": "proved",
   "theorems": [
    "Verif.Tracker.C02_clock",
    "Verif.Tracker.C02_clock_modal"
   ],
   "note": "Plain and modal tracker."
  },
  {
   "property": "C03",
   "status": "proved",
   "theorems": [
    "Verif.Tracker.C03_samples",
    "Verif.Tracker.C03_samples_modal"
   ],
   "note": "Plain and modal tracker; per absolute frame, as sub-multiset."
  },
  {
   "property": "C04",
   "status": "proved",
   "theorems": [
    "Verif.Tracker.C04_jump",
    "Verif.Tracker.C04_jump_modal"
   ],
   "note": "Also proved for the modal tracker (adjacent non-NaN samples)."
  },
  {
   "property": "C05",
   "status": "proved",
   "theorems": [
    "Verif.Tracker.C05_greedy",
    "Verif.Tracker.C05_greedy_modal"
   ],
   "note": "Any state with non-empty active tracks, any result of the unstable argsort."
  },
  {
   "property": "C06",
   "status": "proved",
   "theorems": [
    "Verif.Tracker.C06_min_length",
    "Verif.Tracker.C06_min_length_modal"
   ],
   "note": "Also proved for the modal tracker (counting proper samples)."
  },
  {
   "property": "C07",
   "status": "proved",
   "theorems": [
    "Verif.Tracker.C07_no_loss"
   ],
   "note": "One update of the plain tracker; finished tracks are appended from the last index to the first, as in the loop."
  },
  {
   "property": "C08",
   "status": "proved",
   "theorems": [
    "Verif.Sms.C08_no_memory",
    "Verif.Sms.C08_refit",
    "Verif.Sms.C08_twice",
    "Verif.Sms.C08_given_storage_not_reset"
   ],
   "note": "Whole fit: reset of storage and tracker, set_params, windows, dft, peaks, tracker. FFT and argsort are arbitrary functions. C08_given_storage_not_reset shows the exception."
  },
  {
   "property": "C09",
   "status": "proved",
   "theorems": [
    "Verif.Tracker.C09_acceptance"
   ],
   "note": "LinearRegression is replaced by the closed-form least-squares line, which is proved to be the unique minimiser."
  },
  {
   "property": "C10",
   "status": "proved",
   "theorems": [
    "Verif.Tracker.C10_reverse",
    "Verif.Tracker.C10_short"
   ],
   "note": ""
  },
  {
   "property": "C11",
   "status": "proved",
   "theorems": [
    "Verif.Tracker.C11_merge_preserves"
   ],
   "note": "Any reachable state."
  },
  {
   "property": "C12",
   "status": "proved",
   "theorems": [
    "Verif.Tracker.C12_merge_choice",
    "Verif.Tracker.C12_diff_defined",
    "Verif.Tracker.C12_unknown_strategy"
   ],
   "note": "Includes the KeyError branch."
  },
  {
   "property": "C13",
   "status": "proved",
   "theorems": [
    "Verif.Tracker.C13_strip"
   ],
   "note": "Both time directions."
  },
  {
   "property": "C14",
   "status": "proved",
   "theorems": [
    "Verif.Sms.C14_peak_detect"
   ],
   "note": "Any array (also shorter than 3), with and without threshold."
  },
  {
   "property": "C15",
   "status": "proved",
   "theorems": [
    "Verif.Sms.C15_refine"
   ],
   "note": "Exactness stated for any parabola through the three bins."
  },
  {
   "property": "C16",
   "status": "proved",
   "theorems": [
    "Verif.Sms.C16_phase"
   ],
   "note": ""
  },
  {
   "property": "C17",
   "status": "proved",
   "theorems": [
    "Verif.Sms.C17_buffer",
    "Verif.Sms.C17_window_of_one",
    "Verif.Sms.C17_long_window_loses_samples"
   ],
   "note": "Includes the two limits of the claim as theorems (window of one sample, window longer than the FFT). The FFT itself is opaque."
  },
  {
   "property": "C18",
   "status": "proved",
   "theorems": [
    "Verif.Sms.C18_windows",
    "Verif.Sms.C18_short",
    "Verif.Sms.C18_default_hop"
   ],
   "note": "as_strided reads are checked in the model, so `ok` means that no read leaves the array."
  },
  {
   "property": "C19",
   "status": "proved",
   "theorems": [
    "Verif.Sms.C19_padding",
    "Verif.Sms.C19_unpadded",
    "Verif.Sms.C19_centre",
    "Verif.Sms.C19_large_hop_misses_samples"
   ],
   "note": "Statement corrected against the code: the hop bound is sharp, and the centring promise of the docstring fails for odd windows."
  },
  {
   "property": "C20",
   "status": "proved",
   "theorems": [
    "Verif.Sample.C20_times",
    "Verif.Sample.C20_frame_centre"
   ],
   "note": "Exact output of _preprocess_track, and the frames of time_frames placed in the original audio. Hypotheses are met by every track of the trackers (C02, C06)."
  },
  {
   "property": "C21",
   "status": "proved",
   "theorems": [
    "Verif.Sample.C21_line",
    "Verif.Sample.C21_flat"
   ],
   "note": "Regressor result is a pair of finite numbers."
  },
  {
   "property": "C22",
   "status": "proved",
   "theorems": [
    "Verif.Sample.C22_finite_columns"
   ],
   "note": "NaN and infinities are one value `none`."
  },
  {
   "property": "C23",
   "status": "proved",
   "theorems": [
    "Verif.Sample.C23_energy",
    "Verif.Sample.C23_length"
   ],
   "note": "Integral from Mathlib; energies_ entry by entry (fresh output array; aliasing is C34)."
  },
  {
   "property": "C24",
   "status": "proved",
   "theorems": [
    "Verif.Sample.C24_best_modes",
    "Verif.Sample.C24_negative",
    "Verif.Sample.C24_unknown_order",
    "Verif.Sample.C24_predict_audio"
   ],
   "note": "For every argsort that sorts; also negative n, unknown order, and the audio of predict as a sum of the chosen modes."
  },
  {
   "property": "C25",
   "status": "proved",
   "theorems": [
    "Verif.Sample.C25_sum",
    "Verif.Sample.C25_laws",
    "Verif.Sample.C25_errors"
   ],
   "note": "Over the reals / complex numbers; random phases are any drawn array."
  },
  {
   "property": "C26",
   "status": "proved",
   "theorems": [
    "Verif.Sample.C26_sdt_params",
    "Verif.Sample.C26_no_modes"
   ],
   "note": "The empty model raises ZeroDivisionError (finding)."
  },
  {
   "property": "C27",
   "status": "proved",
   "theorems": [
    "Verif.Hinge.C27_hinge",
    "Verif.Hinge.C27_predict"
   ],
   "note": "hinge_function entry by entry: line, constant, Lipschitz (hence continuous), monotone; predict is the function at every point."
  },
  {
   "property": "C28",
   "status": "proved",
   "theorems": [
    "Verif.Hinge.C28_feasible",
    "Verif.Hinge.C28_short",
    "Verif.Hinge.C28_fit"
   ],
   "note": "defaultBounds and defaultCoeffsInit; fit therefore always reaches the solver. C28_short: one point or none is a ValueError."
  },
  {
   "property": "C29",
   "status": "proved",
   "theorems": [
    "Verif.Optimize.C29_remapper",
    "Verif.Optimize.C29_deprecated"
   ],
   "note": "SAMPLE(**kwargs) is modelled by the FFT and window size its sinusoidal model gets; windows by their size."
  },
  {
   "property": "C30",
   "status": "proved",
   "theorems": [
    "Verif.Optimize.C30_kwargs",
    "Verif.Optimize.C30_no_remap",
    "Verif.Optimize.C30_loss",
    "Verif.Optimize.C30_minimize",
    "Verif.Optimize.C30_call",
    "Verif.Optimize.C30_sample_fn"
   ],
   "note": "skopt.gp_minimize and the operations of the model are arbitrary functions."
  },
  {
   "property": "C31",
   "status": "proved",
   "theorems": [
    "Verif.Utils.C31_rename",
    "Verif.Utils.C31_chain",
    "Verif.Utils.C31_again",
    "Verif.Utils.C31_prefix",
    "Verif.Utils.C31_check",
    "Verif.Utils.C31_convert",
    "Verif.Utils.C31_sinusoidal",
    "Verif.Utils.C31_sine_tracker_cls",
    "Verif.Utils.C31_safe_sine_len_positional"
   ],
   "note": "Stacks of the library are covered: C31_sinusoidal, modalNames_ok and remapperNames_ok meet C31_chain. sine_tracker_cls does not work (C31_sine_tracker_cls)."
  },
  {
   "property": "C32",
   "status": "proved",
   "theorems": [
    "Verif.Learn.C32_history",
    "Verif.Learn.C32_appends",
    "Verif.Learn.C32_off",
    "Verif.Learn.C32_returns",
    "Verif.Learn.C32_negative",
    "Verif.Learn.C32_reset"
   ],
   "note": "Arbitrary histories of append/reset/save switches; negative indices separately."
  },
  {
   "property": "C33",
   "status": "proved",
   "theorems": [
    "Verif.Learn.C33_set_get",
    "Verif.Learn.C33_default_defaulter",
    "Verif.Learn.C33_unset",
    "Verif.Learn.C33_names",
    "Verif.Learn.C33_distinct"
   ],
   "note": "Statement corrected against the code (defaults are built on assignment, not on read; there is no deletion)."
  },
  {
   "property": "C34",
   "status": "proved",
   "theorems": [
    "Verif.Out.C34_db2a",
    "Verif.Out.C34_hz2bark_zwicker",
    "Verif.Out.C34_hz2bark_traunmuller",
    "Verif.Out.C34_hz2bark_wang",
    "Verif.Out.C34_bark2hz_traunmuller",
    "Verif.Out.C34_bark2hz_wang",
    "Verif.Out.C34_hz2mel",
    "Verif.Out.C34_mel2hz",
    "Verif.Out.C34_hz2mel_fant",
    "Verif.Out.C34_mel2hz_fant",
    "Verif.Out.C34_erb",
    "Verif.Out.C34_erb_linear",
    "Verif.Out.C34_hz2cams",
    "Verif.Out.C34_hz2cams_linear",
    "Verif.Out.C34_cams2hz",
    "Verif.Out.C34_cams2hz_linear",
    "Verif.Out.C34_a_weighting",
    "Verif.Out.C34_envelope",
    "Verif.Out.C34_hwr",
    "Verif.Out.C34_hinge",
    "Verif.Out.C34_bin2f",
    "Verif.Out.C34_a2db",
    "Verif.Out.C34_exponential_decay",
    "Verif.Out.C34_exponential_decay_dt",
    "Verif.Out.C34_modal_energy",
    "Verif.Out.C34_semisum",
    "Verif.Out.C34_semidiff",
    "Verif.Out.C34_a2db_floor",
    "Verif.Out.C34_a2db_floor_db",
    "Verif.Out.C34_wavefun",
    "Verif.Out.C34_wavefun_in_place_fails",
    "Verif.Out.C34_modal_energy_out_d_fails",
    "Verif.Out.C34_a_weighting_db",
    "Verif.Out.C34_normalize_peak",
    "Verif.Out.C34_normalize_range",
    "Verif.Out.C34_normalize_rms",
    "Verif.Out.C34_in_place"
   ],
   "note": "Data types and casting are not modelled; 1-d arrays; broadcasting of a shorter input into out is not modelled."
  },
  {
   "property": "C35",
   "status": "proved",
   "theorems": [
    "Verif.Utils.C35_off",
    "Verif.Utils.C35_on",
    "Verif.Utils.C35_history"
   ],
   "note": ""
  },
  {
   "property": "C36",
   "status": "proved",
   "theorems": [
    "Verif.Utils.C36_default_kws",
    "Verif.Utils.C36_clash",
    "Verif.Utils.C36_history"
   ],
   "note": ""
  },
  {
   "property": "C37",
   "status": "proved",
   "theorems": [
    "Verif.Dsp.C37_peak",
    "Verif.Dsp.C37_rms",
    "Verif.Dsp.C37_range",
    "Verif.Dsp.C37_degenerate",
    "Verif.Dsp.C37_refused"
   ],
   "note": "Over the reals; NaN and infinities are one value 'not finite'."
  },
  {
   "property": "C38",
   "status": "proved",
   "theorems": [
    "Verif.Dsp.C38_inverse",
    "Verif.Dsp.C38_no_floor",
    "Verif.Dsp.C38_floor",
    "Verif.Dsp.C38_increasing",
    "Verif.Dsp.C38_double"
   ],
   "note": "Over the reals."
  },
  {
   "property": "C39",
   "status": "proved",
   "theorems": [
    "Verif.Dsp.C39_error",
    "Verif.Dsp.C39_local",
    "Verif.Dsp.C39_bisection"
   ],
   "note": "Over the reals, no rounding."
  },
  {
   "property": "C40",
   "status": "proved",
   "theorems": [
    "Verif.Dsp.C40_windows",
    "Verif.Dsp.C40_hop",
    "Verif.Dsp.C40_negative_hop",
    "Verif.Dsp.C40_strided",
    "Verif.Dsp.C40_long_kernel",
    "Verif.Dsp.C40_complex"
   ],
   "note": "Windows, real and complex kernels, output arrays; memory outside of the array is explicit in the model."
  },
  {
   "property": "C41",
   "status": "proved",
   "theorems": [
    "Verif.Dsp.C41_local_maxima",
    "Verif.Dsp.C41_selection",
    "Verif.Dsp.C41_no_garbage",
    "Verif.Dsp.C41_local_maxima_garbage",
    "Verif.Dsp.C41_positions",
    "Verif.Dsp.C41_empty_signal",
    "Verif.Dsp.C41_onset_selection",
    "Verif.Dsp.C41_onset_selection_no_garbage"
   ],
   "note": "Selection and marks characterised for finite inputs and w >= 1; independence of uninitialised memory for all inputs including NaN and all integers w, m."
  },
  {
   "property": "C42",
   "status": "proved",
   "theorems": [
    "Verif.Dsp.C42_flux"
   ],
   "note": "Any type of entries with any magnitude function."
  },
  {
   "property": "C43",
   "status": "proved",
   "theorems": [
    "Verif.Beat.C43_am",
    "Verif.Beat.C43_range",
    "Verif.Beat.C43_shapes"
   ],
   "note": "Numbers and functions of time; broadcasting errors included."
  },
  {
   "property": "C44",
   "status": "proved",
   "theorems": [
    "Verif.Beat.C44_fm",
    "Verif.Beat.C44_phase",
    "Verif.Beat.C44_decay",
    "Verif.Beat.C44_modal",
    "Verif.Beat.C44_no_derivative",
    "Verif.Beat.C44_chirp"
   ],
   "note": "Constant frequencies and phases; counterexample for chirps proved."
  },
  {
   "property": "C45",
   "status": "proved",
   "theorems": [
    "Verif.Beat.C45_initial_phase",
    "Verif.Beat.C45_first_sample",
    "Verif.Beat.C45_start",
    "Verif.Beat.C45_offset"
   ],
   "note": "Counterexample for axes not starting at zero proved."
  },
  {
   "property": "C46",
   "status": "proved",
   "theorems": [
    "Verif.Beat.C46_partials",
    "Verif.Beat.C46_sorted",
    "Verif.Beat.C46_energy",
    "Verif.Beat.C46_idempotent",
    "Verif.Beat.C46_descending_ties",
    "Verif.Beat.C46_nan"
   ],
   "note": "Any ordered field."
  },
  {
   "property": "C47",
   "status": "proved",
   "theorems": [
    "Verif.Beat.C47_decision",
    "Verif.Beat.C47_invariance",
    "Verif.Beat.C47_columns",
    "Verif.Beat.C47_base"
   ],
   "note": "Any decision function; default one characterised."
  },
  {
   "property": "C48",
   "status": "proved",
   "theorems": [
    "Verif.Psycho.C48_bark",
    "Verif.Psycho.C48_bark_back",
    "Verif.Psycho.C48_mel",
    "Verif.Psycho.C48_cams",
    "Verif.Psycho.C48_unknown"
   ],
   "note": "Over the reals."
  },
  {
   "property": "C49",
   "status": "proved",
   "theorems": [
    "Verif.Psycho.C49_increasing",
    "Verif.Psycho.C49_erb"
   ],
   "note": "Over the reals."
  },
  {
   "property": "C50",
   "status": "proved",
   "theorems": [
    "Verif.Psycho.C50_triangle",
    "Verif.Psycho.C50_corners",
    "Verif.Psycho.C50_spaced",
    "Verif.Psycho.C50_bandwidth",
    "Verif.Psycho.C50_errors",
    "Verif.Psycho.C50_partition",
    "Verif.Psycho.C50_bandwidth_spaced",
    "Verif.Psycho.C50_mel"
   ],
   "note": "Any ordered field and any increasing transform; instance for the Mel scale over the reals."
  },
  {
   "property": "C51",
   "status": "proved",
   "theorems": [
    "Verif.Psycho.C51_peak",
    "Verif.Psycho.C51_shape",
    "Verif.Psycho.C51_group_delay",
    "Verif.Psycho.C51_wave",
    "Verif.Psycho.C51_energy"
   ],
   "note": "Includes the normalisation of impulse responses."
  },
  {
   "property": "C52",
   "status": "proved",
   "theorems": [
    "Verif.Psycho.C52_full",
    "Verif.Psycho.C52_strided",
    "Verif.Psycho.C52_refused",
    "Verif.Psycho.C52_alignment",
    "Verif.Psycho.C52_size_one",
    "Verif.Psycho.C52_drops",
    "Verif.Psycho.C52_analytic",
    "Verif.Psycho.C52_real_part"
   ],
   "note": "Exact convolution; the one-sample exception with strides is part of the statement."
  },
  {
   "property": "C53",
   "status": "proved",
   "theorems": [
    "Verif.Eval.C53_metric",
    "Verif.Eval.C53_value",
    "Verif.Eval.C53_small",
    "Verif.Eval.C53_infinity",
    "Verif.Eval.C53_kinds",
    "Verif.Eval.C53_zero",
    "Verif.Eval.C53_sizes"
   ],
   "note": "All shapes, kinds of arrays and exponents; deviations proved as theorems."
  },
  {
   "property": "C54",
   "status": "proved",
   "theorems": [
    "Verif.Eval.C54_schedule",
    "Verif.Eval.C54_value",
    "Verif.Eval.C54_njobs",
    "Verif.Eval.C54_override"
   ],
   "note": "Any loss, any schedule."
  },
  {
   "property": "C55",
   "status": "proved",
   "theorems": [
    "Verif.Eval.C55_freqs",
    "Verif.Eval.C55_decays",
    "Verif.Eval.C55_levels",
    "Verif.Eval.C55_amps",
    "Verif.Eval.C55_size",
    "Verif.Eval.C55_refused",
    "Verif.Eval.C55_narrow"
   ],
   "note": "Random generator = arbitrary state with the documented ranges of its draws; size and consistency condition included."
  },
  {
   "property": "C56",
   "status": "proved",
   "theorems": [
    "Verif.Training.C56_schedule",
    "Verif.Training.C56_ends",
    "Verif.Training.C56_context",
    "Verif.Training.C56_progress"
   ],
   "note": "Pool = any list of finish/poll events. Workers are assumed to compute the same function as the main process (pickling is not modelled). C69_fit states it for the whole of SAMPLE.fit."
  },
  {
   "property": "C57",
   "status": "proved",
   "theorems": [
    "Verif.Training.C57_restored",
    "Verif.Training.C57_contents",
    "Verif.Training.C57_other"
   ],
   "note": "Body of the with statement = arbitrary function on a world of storages. C57_contents for one key; C57_restored for any list of keys."
  },
  {
   "property": "C58",
   "status": "proved",
   "theorems": [
    "Verif.Widgets.C58_set",
    "Verif.Widgets.C58_auto",
    "Verif.Widgets.C58_load",
    "Verif.Widgets.C58_step",
    "Verif.Widgets.C58_history",
    "Verif.Widgets.C58_region",
    "Verif.Widgets.C58_shown",
    "Verif.Widgets.C58_drag",
    "Verif.Widgets.C58_open_drag",
    "Verif.Widgets.C58_stale",
    "Verif.Widgets.C58_reload",
    "Verif.Widgets.C58_reload_fails"
   ],
   "note": "Sample rate not zero where stated (C58_shown, C58_reload). Saving and drawing are not modelled."
  },
  {
   "property": "C59",
   "status": "proved",
   "theorems": [
    "Verif.Widgets.C59_exclusion",
    "Verif.Widgets.C59_release",
    "Verif.Widgets.C59_no_waiting",
    "Verif.Widgets.C59_refusal",
    "Verif.Widgets.C59_owner",
    "Verif.Widgets.C59_shown"
   ],
   "note": "Nested callbacks of the Tk main loop are interleavings."
  },
  {
   "property": "C60",
   "status": "proved",
   "theorems": [
    "Verif.Widgets.C60_float",
    "Verif.Widgets.C60_try",
    "Verif.Widgets.C60_bool",
    "Verif.Widgets.C60_strip",
    "Verif.Widgets.C60_strip_nan",
    "Verif.Widgets.C60_clip",
    "Verif.Widgets.C60_clip_default",
    "Verif.Widgets.C60_positive_int",
    "Verif.Widgets.C60_positive_int_raises"
   ],
   "note": "Any conversion function; deviations proved as theorems."
  },
  {
   "property": "C61",
   "status": "proved",
   "theorems": [
    "Verif.Widgets.C61_windows",
    "Verif.Widgets.C61_endless",
    "Verif.Widgets.C61_post",
    "Verif.Widgets.C61_small",
    "Verif.Widgets.C61_power",
    "Verif.Widgets.C61_power_other"
   ],
   "note": "Any window function."
  },
  {
   "property": "C62",
   "status": "proved",
   "theorems": [
    "Verif.Scripts.C62_meaning",
    "Verif.Scripts.C62_order",
    "Verif.Scripts.C62_changelog",
    "Verif.Scripts.C62_stable",
    "Verif.Scripts.C62_lines",
    "Verif.Scripts.C62_file",
    "Verif.Scripts.C62_file_dev",
    "Verif.Scripts.C62_agree",
    "Verif.Scripts.C62_extract"
   ],
   "note": "Character classes, int() and splitext are arbitrary functions with the stated laws."
  },
  {
   "property": "C63",
   "status": "proved",
   "theorems": [
    "Verif.Sms.C63_end_to_end",
    "Verif.Sms.C63_short"
   ],
   "note": "FFT is an arbitrary function of the buffer with the right output sizes; argsort is any valid one."
  },
  {
   "property": "C64",
   "status": "proved",
   "theorems": [
    "Verif.Training.C64_fit_kwargs",
    "Verif.Training.C64_misspelt_ignored"
   ],
   "note": "Dictionary model of the keyword split. C64_misspelt_ignored is the concrete witness."
  },
  {
   "property": "C65",
   "status": "proved",
   "theorems": [
    "Verif.Hinge.C65_slope_sign",
    "Verif.Sample.C65_decay",
    "Verif.Sample.C65_unmerged",
    "Verif.Sample.C65_merged_grows"
   ],
   "note": "Solver = any function that respects its bounds (SolverOk). C65_merged_grows is the witness of a reported, merged track with increasing trend."
  },
  {
   "property": "C66",
   "status": "proved",
   "theorems": [
    "Verif.Optimize.C66_callback",
    "Verif.Optimize.C66_start_twice"
   ],
   "note": ""
  },
  {
   "property": "C68",
   "status": "proved",
   "theorems": [
    "Verif.Learn.Race.C68_concurrent",
    "Verif.Learn.Race.C68_solo",
    "Verif.Learn.Race.C68_empty",
    "Verif.Learn.Race.C68_race_lost",
    "Verif.Learn.Race.C68_race_raises",
    "Verif.Learn.Race.C68_race_surplus"
   ],
   "note": "Small-step model of append with arbitrary schedules; the three C68_race_* theorems are witnesses of what goes wrong on a fresh storage."
  },
  {
   "property": "C69",
   "status": "proved",
   "theorems": [
    "Verif.Sample.C69_fit"
   ],
   "note": "Composition of C63, C20, C21, C22, C28, C56, C65 over the reals. FFT = arbitrary function, argsort = any valid order, solver = any bound-respecting function."
  },
  {
   "property": "C70",
   "status": "proved",
   "theorems": [
    "Verif.Utils.C70_variants"
   ],
   "note": ""
  },
  {
   "property": "C71",
   "status": "proved",
   "theorems": [
    "Verif.Utils.C71_add_keyword_arg"
   ],
   "note": ""
  },
  {
   "property": "C72",
   "status": "proved",
   "theorems": [
    "Verif.Utils.C72_operators"
   ],
   "note": ""
  },
  {
   "property": "C73",
   "status": "proved",
   "theorems": [
    "Verif.Psycho.C73_energy",
    "Verif.Psycho.C73_scale",
    "Verif.Psycho.C73_errors",
    "Verif.Psycho.C73_stft2mel",
    "Verif.Psycho.C73_complex"
   ],
   "note": "Exponents, level, complex mode, sizes; whole stft2mel with the Mel scale."
  },
  {
   "property": "C74",
   "status": "proved",
   "theorems": [
    "Verif.Psycho.C74_search",
    "Verif.Psycho.C74_tolerance",
    "Verif.Psycho.C74_order_one",
    "Verif.Psycho.C74_default",
    "Verif.Psycho.C74_ir_size"
   ],
   "note": "Default arguments are proved never to fail for orders 2 to 10000."
  },
  {
   "property": "C75",
   "status": "proved",
   "theorems": [
    "Verif.Psycho.C75_centres",
    "Verif.Psycho.C75_default"
   ],
   "note": "General transform and the default ERB-rate scale."
  },
  {
   "property": "C76",
   "status": "proved",
   "theorems": [
    "Verif.Psycho.C76_rectified",
    "Verif.Psycho.C76_analytic",
    "Verif.Psycho.C76_refused",
    "Verif.Psycho.C76_silent"
   ],
   "note": "Without stride (strides: C52); Hilbert transform arbitrary."
  },
  {
   "property": "C77",
   "status": "proved",
   "theorems": [
    "Verif.Beat.C77_convergence",
    "Verif.Beat.C77_modal"
   ],
   "note": "Error of order h^2, uniform over all axes."
  },
  {
   "property": "C78",
   "status": "proved",
   "theorems": [
    "Verif.Beat.C78_amplitude",
    "Verif.Beat.C78_one_of",
    "Verif.Beat.C78_choice",
    "Verif.Beat.C78_frequency",
    "Verif.Beat.C78_fit",
    "Verif.Beat.C78_residuals",
    "Verif.Beat.C78_exact",
    "Verif.Beat.C78_recovers"
   ],
   "note": "Optimiser arbitrary."
  },
  {
   "property": "C79",
   "status": "proved",
   "theorems": [
    "Verif.Beat.C79_inside",
    "Verif.Beat.C79_start",
    "Verif.Beat.C79_unfeasible",
    "Verif.Beat.C79_result"
   ],
   "note": "Exact characterisation; optimiser arbitrary."
  },
  {
   "property": "C80",
   "status": "proved",
   "theorems": [
    "Verif.Beat.C80_fit",
    "Verif.Beat.C80_schedule",
    "Verif.Beat.C80_one_failure",
    "Verif.Beat.C80_total",
    "Verif.Beat.C80_nan",
    "Verif.Beat.C80_constant_frequency",
    "Verif.Beat.C80_predict",
    "Verif.Beat.C80_none_phases"
   ],
   "note": "Optional storages left out (C32, C57)."
  },
  {
   "property": "C81",
   "status": "proved",
   "theorems": [
    "Verif.Eval.C81_value",
    "Verif.Eval.C81_pseudometric",
    "Verif.Eval.C81_floor",
    "Verif.Eval.C81_multiscale"
   ],
   "note": "STFT and window are arbitrary functions."
  },
  {
   "property": "C82",
   "status": "proved",
   "theorems": [
    "Verif.Eval.C82_pseudometric",
    "Verif.Eval.C82_same",
    "Verif.Eval.C82_analytic",
    "Verif.Eval.C82_polarity"
   ],
   "note": "Default post-processing; entries finite (proved for analytic=\"ir\" without stride)."
  },
  {
   "property": "C83",
   "status": "proved",
   "theorems": [
    "Verif.Eval.C83_audio",
    "Verif.Eval.C83_refused"
   ],
   "note": "n = 1 and negative sizes are errors (proved)."
  },
  {
   "property": "C84",
   "status": "proved",
   "theorems": [
    "Verif.Widgets.C84_readable",
    "Verif.Widgets.C84_apply",
    "Verif.Widgets.C84_params",
    "Verif.Widgets.C84_atomic",
    "Verif.Widgets.C84_bounds"
   ],
   "note": "Laws (round trip of numbers through texts) are assumptions, shown satisfiable. Errors of writing the settings file and the reload dialog itself (settings.py:611-626) are not modelled."
  },
  {
   "property": "C85",
   "status": "proved",
   "theorems": [
    "Verif.Widgets.C85_again",
    "Verif.Widgets.C85_restart",
    "Verif.Widgets.C85_stable"
   ],
   "note": "As C84; the contents of the settings file are the dictionary saved (JSON round trip assumed)."
  },
  {
   "property": "C86",
   "status": "proved",
   "theorems": [
    "Verif.Scripts.C86_files_sound",
    "Verif.Scripts.C86_report",
    "Verif.Scripts.C86_ends",
    "Verif.Scripts.C86_saved",
    "Verif.Scripts.C86_not_saved",
    "Verif.Scripts.C86_unreadable_table"
   ],
   "note": "The test is a function of the seed. Table text round trip assumed; a file cut within a row (which pandas may read with a wrong last number) is not among the interruptions."
  },
  {
   "property": "C87",
   "status": "proved",
   "theorems": [
    "Verif.Scripts.C87_resume",
    "Verif.Scripts.C87_no_resume_loses",
    "Verif.Scripts.C87_cleanup_loses",
    "Verif.Scripts.C87_cut_loses"
   ],
   "note": "As C86. C87_no_resume_loses, C87_cleanup_loses, C87_cut_loses are witnesses for the excluded cases."
  },
  {
   "property": "C88",
   "status": "proved",
   "theorems": [
    "Verif.Scripts.C88_run",
    "Verif.Scripts.C88_history",
    "Verif.Scripts.C88_complete",
    "Verif.Scripts.C88_zero",
    "Verif.Scripts.C88_cases",
    "Verif.Scripts.C88_other_samples"
   ],
   "note": "Interruption of the writing of the table (in place, performance.py:363) is not modelled. C88_other_samples is the witness for another number of samples."
  },
  {
   "property": "C89",
   "status": "proved",
   "theorems": [
    "Verif.Scripts.C89_times",
    "Verif.Scripts.C89_speedup",
    "Verif.Scripts.C89_missing"
   ],
   "note": "Times are positive (hypothesis)."
  },
  {
   "property": "C90",
   "status": "proved",
   "theorems": [
    "Verif.Scripts.C90_command",
    "Verif.Scripts.C90_escaped",
    "Verif.Scripts.C90_wrap",
    "Verif.Scripts.C90_unwrap_wrap",
    "Verif.Scripts.C90_wrap_unwrap",
    "Verif.Scripts.C90_keep",
    "Verif.Scripts.C90_tag",
    "Verif.Scripts.C90_again",
    "Verif.Scripts.C90_selected",
    "Verif.Scripts.C90_cells",
    "Verif.Scripts.C90_file",
    "Verif.Scripts.C90_changed"
   ],
   "note": "\\r\\n counts as two line boundaries in the model. Laws on character classes (NbLaws): !, % and p are not whitespace, newline is a line boundary, the added texts have none."
  },
  {
   "property": "C91",
   "status": "proved",
   "theorems": [
    "Verif.Scripts.C91_signed",
    "Verif.Scripts.C91_equal_channels",
    "Verif.Scripts.C91_unsigned",
    "Verif.Scripts.C91_floats"
   ],
   "note": "Exact arithmetic; types of floating-point numbers are not distinguished."
  },
  {
   "property": "C92",
   "status": "proved",
   "theorems": [
    "Verif.Scripts.C92_auto",
    "Verif.Scripts.C92_none",
    "Verif.Scripts.C92_start",
    "Verif.Scripts.C92_stop",
    "Verif.Scripts.C92_both",
    "Verif.Scripts.C92_beyond",
    "Verif.Scripts.C92_error"
   ],
   "note": "Onset detection is an arbitrary function that returns a mask of the length of the audio."
  },
  {
   "property": "C93",
   "status": "proved",
   "theorems": [
    "Verif.Scripts.C93_level",
    "Verif.Scripts.C93_empty"
   ],
   "note": "Exact arithmetic, no NaN."
  },
  {
   "property": "C94",
   "status": "proved",
   "theorems": [
    "Verif.Dsp.C94_circular",
    "Verif.Dsp.C94_real",
    "Verif.Dsp.C94_default",
    "Verif.Dsp.C94_linear",
    "Verif.Dsp.C94_power",
    "Verif.Dsp.C94_error",
    "Verif.Dsp.C94_peak"
   ],
   "note": "Exact arithmetic; the transforms are their defining sums."
  },
  {
   "property": "C95",
   "status": "proved",
   "theorems": [
    "Verif.Dsp.C95_f2bin",
    "Verif.Dsp.C95_roundtrip",
    "Verif.Dsp.C95_scalar",
    "Verif.Dsp.C95_periodogram",
    "Verif.Dsp.C95_negative_lpf",
    "Verif.Dsp.C95_autocorrelogram"
   ],
   "note": "Hypothesis of the periodogram: a value for each frequency."
  },
  {
   "property": "C96",
   "status": "proved",
   "theorems": [
    "Verif.Dsp.C96_residuals",
    "Verif.Dsp.C96_invariant",
    "Verif.Dsp.C96_line",
    "Verif.Dsp.C96_cases",
    "Verif.Dsp.C96_model"
   ],
   "note": "sklearn.linear_model.LinearRegression is its closed form (least norm if all times are equal)."
  },
  {
   "property": "C97",
   "status": "proved",
   "theorems": [
    "Verif.Widgets.C97_range",
    "Verif.Widgets.C97_model",
    "Verif.Widgets.C97_last",
    "Verif.Widgets.C97_lazy",
    "Verif.Widgets.C97_messages",
    "Verif.Widgets.C97_original",
    "Verif.Widgets.C97_stale"
   ],
   "note": "Sample rates are not zero; files chosen for export can be written."
  },
  {
   "property": "C98",
   "status": "proved",
   "theorems": [
    "Verif.Widgets.C98_linear",
    "Verif.Widgets.C98_count",
    "Verif.Widgets.C98_live",
    "Verif.Widgets.C98_sequential",
    "Verif.Widgets.C98_pool_exceeds"
   ],
   "note": "Updating the bar does not raise. The lock is the one of one fit."
  },
  {
   "property": "C99",
   "status": "proved",
   "theorems": [
    "Verif.Gui.C99_ends",
    "Verif.Gui.C99_closing",
    "Verif.Gui.C99_close_ends",
    "Verif.Gui.C99_stuck",
    "Verif.Gui.C99_killed",
    "Verif.Gui.C99_settings_kept",
    "Verif.Gui.C99_settings_atomic",
    "Verif.Gui.C99_reload",
    "Verif.Gui.C99_cache_once",
    "Verif.Gui.C99_broken_cache"
   ],
   "note": "Files are written in place: opening for writing empties them."
  },
  {
   "property": "C100",
   "status": "proved",
   "theorems": [
    "Verif.Est.C100_independent",
    "Verif.Est.C100_set",
    "Verif.Est.C100_new",
    "Verif.Est.C100_defaults",
    "Verif.Est.C100_clone",
    "Verif.Est.C100_ends",
    "Verif.Est.C100_package"
   ],
   "note": "The classes may be any table with distinct names without \"__\"; C100_package shows that those of the package are one. Deprecated arguments and estimators as arguments are excluded (shared_part shows why)."
  },
  {
   "property": "C101",
   "status": "proved",
   "theorems": [
    "Verif.Est.C101_factory",
    "Verif.Widgets.C101_settings"
   ],
   "note": "A model is made without fit. The dictionary of parameters has distinct keys, as every Python dictionary."
  },
  {
   "property": "C102",
   "status": "proved",
   "theorems": [
    "Verif.Scripts.C102_beat",
    "Verif.Scripts.C102_zero"
   ],
   "note": "A negative decay is not claimed (the integral diverges). Floating point is not modelled."
  },
  {
   "property": "C103",
   "status": "proved",
   "theorems": [
    "Verif.Scripts.C103_extrema",
    "Verif.Scripts.C103_empty",
    "Verif.Scripts.C103_zerox",
    "Verif.Scripts.C103_alternate",
    "Verif.Scripts.C103_crossings",
    "Verif.Scripts.C103_parity"
   ],
   "note": ""
  },
  {
   "property": "C104",
   "status": "proved",
   "theorems": [
    "Verif.Html.C104_page",
    "Verif.Html.C104_dunder",
    "Verif.Html.C104_described",
    "Verif.Html.C104_lines",
    "Verif.Html.C104_docs",
    "Verif.Html.C104_roles"
   ],
   "note": ""
  },
  {
   "property": "C105",
   "status": "proved",
   "theorems": [
    "Verif.Scripts.C105_frequentist",
    "Verif.Scripts.C105_bayesian",
    "Verif.Scripts.C105_items",
    "Verif.Scripts.C105_errors",
    "Verif.Scripts.C105_fresh",
    "Verif.Scripts.C105_stale"
   ],
   "note": "autorank is an arbitrary function. `premap` may be any function."
  },
  {
   "property": "C106",
   "status": "proved",
   "theorems": [
    "Verif.Scripts.C106_nearest",
    "Verif.Scripts.C106_classes",
    "Verif.Scripts.C106_importances",
    "Verif.Scripts.C106_uninitialised",
    "Verif.Scripts.C106_fft"
   ],
   "note": "Decision trees are an arbitrary function of split, target and feature."
  },
  {
   "property": "C107",
   "status": "proved",
   "theorems": [
    "Verif.Plots.C107_shift",
    "Verif.Plots.C107_3d",
    "Verif.Plots.C107_positive",
    "Verif.Plots.C107_dashed"
   ],
   "note": "Drawing is not modelled; `frameTime` is the model of the times in `_preprocess_track`."
  },
  {
   "property": "C108",
   "status": "proved",
   "theorems": [
    "Verif.Plots.C108_aspect",
    "Verif.Plots.C108_resynthesis",
    "Verif.Plots.C108_rate",
    "Verif.Plots.C108_played",
    "Verif.Plots.C108_label"
   ],
   "note": "tf_fun and the drawing are not modelled; models are arbitrary functions of the times."
  },
  {
   "property": "C109",
   "status": "proved",
   "theorems": [
    "Verif.Player.C109_serial",
    "Verif.Player.C109_rate",
    "Verif.Player.C109_heard",
    "Verif.Player.C109_open",
    "Verif.Player.C109_closes",
    "Verif.Player.C109_exclusive",
    "Verif.Player.C109_progress",
    "Verif.Player.C109_within",
    "Verif.Player.C109_deadlock",
    "Verif.Player.C109_ends"
   ],
   "note": "pygame operations are atomic steps that may fail; interrupts inside `Lock` itself are not modelled."
  },
  {
   "property": "C110",
   "status": "proved",
   "theorems": [
    "Verif.Attr.C110_bank",
    "Verif.Attr.C110_items",
    "Verif.Attr.C110_endless",
    "Verif.Attr.C110_beat",
    "Verif.Attr.C110_compute"
   ],
   "note": "`pg.evaluate` is an arbitrary function of a node. Recursion depth is fuel; an endless recursion is a RecursionError in Python."
  },
  {
   "property": "C111",
   "status": "proved",
   "theorems": [
    "Verif.Tk.C111_children"
   ],
   "note": "The widgets are fixed during the iteration."
  },
  {
   "property": "C112",
   "status": "proved",
   "theorems": [
    "Verif.Tk.C112_restored",
    "Verif.Tk.C112_block",
    "Verif.Tk.C112_inside",
    "Verif.Tk.C112_missing"
   ],
   "note": "`mock.patch.object` is modelled for attributes in the dictionary of the module."
  },
  {
   "property": "C113",
   "status": "proved",
   "theorems": [
    "Verif.Tk.C113_value",
    "Verif.Tk.C113_same"
   ],
   "note": "Mixing fails only for classes that are mixed already (order of the bases)."
  },
  {
   "property": "C114",
   "status": "proved",
   "theorems": [
    "Verif.Tk.C114_weights",
    "Verif.Tk.C114_negative"
   ],
   "note": "Only integer indices; negative ones are an error of Tk."
  },
  {
   "property": "C115",
   "status": "proved",
   "theorems": [
    "Verif.Logspace.C115_path",
    "Verif.Logspace.C115_monotone",
    "Verif.Logspace.C115_list",
    "Verif.Logspace.C115_ticks",
    "Verif.Logspace.C115_errors"
   ],
   "note": "Real arithmetic instead of floating point."
  },
  {
   "property": "C116",
   "status": "proved",
   "theorems": [
    "Verif.Tk.C116_shared",
    "Verif.Tk.C116_class"
   ],
   "note": "`parent` is an arbitrary fixed function (`winfo_parent`)."
  },
  {
   "property": "C117",
   "status": "proved",
   "theorems": [
    "Verif.Beat.C117_residuals",
    "Verif.Beat.C117_accuracy",
    "Verif.Beat.C117_column",
    "Verif.Beat.C117_errors",
    "Verif.Beat.C117_last"
   ],
   "note": "Real arithmetic instead of floating point."
  },
  {
   "property": "C118",
   "status": "proved",
   "theorems": [
    "Verif.Export.C118_history",
    "Verif.Export.C118_dialogs"
   ],
   "note": "Dialogs return any text; the file system is a function from paths to contents."
  },
  {
   "property": "C119",
   "status": "proved",
   "theorems": [
    "Verif.Export.C119_others",
    "Verif.Export.C119_saved",
    "Verif.Export.C119_contents",
    "Verif.Export.C119_lost"
   ],
   "note": "A failing write leaves a prefix of the pieces; no other program writes."
  },
  {
   "property": "C120",
   "status": "proved",
   "theorems": [
    "Verif.Paths.C120_parts",
    "Verif.Paths.C120_distinct",
    "Verif.Paths.C120_texts",
    "Verif.Paths.C120_suggest_wav",
    "Verif.Paths.C120_suggest_json"
   ],
   "note": "POSIX paths."
  },
  {
   "property": "C121",
   "status": "proved",
   "theorems": [
    "Verif.Paths.C121_inside",
    "Verif.Paths.C121_invalid",
    "Verif.Paths.C121_present",
    "Verif.Paths.C121_prepare"
   ],
   "note": "POSIX paths; making a directory fails only for the empty name."
  },
  {
   "property": "C122",
   "status": "proved",
   "theorems": [
    "Verif.Tracker.C122_tracks",
    "Verif.Tracker.C122_modal"
   ],
   "note": "Real arithmetic instead of floating point."
  },
  {
   "property": "C123",
   "status": "proved",
   "theorems": [
    "Verif.Tracker.C123_pauses"
   ],
   "note": "Real arithmetic instead of floating point; NaN is `none`."
  },
  {
   "property": "C124",
   "status": "proved",
   "theorems": [
    "Verif.Sms.C124_dft",
    "Verif.Sms.C124_zero_phase",
    "Verif.Sms.C124_gain"
   ],
   "note": "Real arithmetic instead of floating point; `scipy.fft.rfft` is its defining sum; no negative zeros (`np.angle` of a negative number is pi)."
  },
  {
   "property": "C125",
   "status": "proved",
   "theorems": [
    "Verif.Sms.C125_tracks",
    "Verif.Sms.C125_partials"
   ],
   "note": "Real arithmetic instead of floating point; unpadded analysis. The hypotheses are those of the structure `Decaying`; `exSimilar_decaying` meets them for both directions and both trackers; `C125_partials` gives the sounds that are meant."
  },
  {
   "property": "C126",
   "status": "proved",
   "theorems": [
    "Verif.Sample.C126_modes"
   ],
   "note": "Real arithmetic instead of floating point; unpadded analysis; the search of `scipy.optimize.least_squares` is any function that finds a minimum if there is one (`SolverMin`, met by `solverMin_exists`)."
  },
  {
   "property": "C127",
   "status": "proved",
   "theorems": [
    "Verif.Sample.C127_roundtrip"
   ],
   "note": "As for C126: real arithmetic, unpadded analysis, `SolverMin` for the search."
  },
  {
   "property": "C128",
   "status": "proved",
   "theorems": [
    "Verif.Sample.C128_decay"
   ],
   "note": "Real arithmetic. The search is any function that returns a point of the box whose cost is within eta of every other point of the box (`SolverNear`), with eta <= N eps^2."
  },
  {
   "property": "C129",
   "status": "proved",
   "theorems": [
    "Verif.Sms.C129_tracks"
   ],
   "note": "Real arithmetic, unpadded analysis."
  },
  {
   "property": "C130",
   "status": "proved",
   "theorems": [
    "Verif.Sample.C130_modes",
    "Verif.Sms.C130_lasting"
   ],
   "note": "Real arithmetic, unpadded analysis. The search is any function with `SolverNear`, as in C128."
  },
  {
   "property": "C131",
   "status": "proved",
   "theorems": [
    "Verif.Sample.C131_modes",
    "Verif.Sms.C131_partials",
    "Verif.Sms.C131_centred"
   ],
   "note": "Real arithmetic, unpadded analysis. The search is any function with `SolverNear`, as in C128."
  },
  {
   "property": "C132",
   "status": "proved",
   "theorems": [
    "Verif.Sample.C132_modes",
    "Verif.Sms.C132_ringing"
   ],
   "note": "Real arithmetic, unpadded analysis, window as long as the FFT. The window values are those of the formula; scipy itself is not modelled. The search is any function with `SolverNear`, as in C128."
  },
  {
   "property": "C133",
   "status": "proved",
   "theorems": [
    "Verif.Sms.C133_common",
    "Verif.Sms.C133_longer",
    "Verif.Sms.C133_backward_strip"
   ],
   "note": "The limit on `strip_t` backward is real (`C133_backward_strip`): the onset is then counted from the end of the analysis."
  },
  {
   "property": "C134",
   "status": "proved",
   "theorems": [
    "Verif.Sample.C134_modes_rate",
    "Verif.Sample.C134_modes_gain",
    "Verif.Sample.C134_modes_gain_default",
    "Verif.Sms.C134_rate",
    "Verif.Sms.C134_gain"
   ],
   "note": "Phases are not compared under gain. Follow-conditions on the regressor, the sort and scipy's search are hypotheses: exact numbers, so rounding is out of scope. The default regressor is not covered in (1): its bounds for a zero slope and for equal times have no unit."
  },
  {
   "property": "C135",
   "status": "proved",
   "theorems": [
    "Verif.Sample.C135_modes_before",
    "Verif.Sample.C135_modes_after",
    "Verif.Sms.C135_before",
    "Verif.Sms.C135_after",
    "Verif.Sms.C135_straddling"
   ],
   "note": "The storages of intermediate results have d more entries and are not compared. The default regressor is covered by (2) only: the bounds of its intercept depend on the time origin, so a delay changes the problem that is given to `scipy.optimize.least_squares`. Silence that is not a whole number of hops moves the frames and is not covered."
  },
  {
   "property": "C136",
   "status": "proved",
   "theorems": [
    "Verif.Out.C136_smallest",
    "Verif.Out.C136_legacy",
    "Verif.Out.C136_rules",
    "Verif.Out.C136_db2a",
    "Verif.Out.C136_a2db",
    "Verif.Out.C136_hz2bark_zwicker",
    "Verif.Out.C136_hz2bark_traunmuller",
    "Verif.Out.C136_hz2bark_wang",
    "Verif.Out.C136_bark2hz_traunmuller",
    "Verif.Out.C136_bark2hz_wang",
    "Verif.Out.C136_hz2mel",
    "Verif.Out.C136_mel2hz",
    "Verif.Out.C136_hz2mel_fant",
    "Verif.Out.C136_mel2hz_fant",
    "Verif.Out.C136_erb_linear",
    "Verif.Out.C136_hz2cams_linear",
    "Verif.Out.C136_cams2hz_linear",
    "Verif.Out.C136_bin2f",
    "Verif.Out.C136_exponential_decay",
    "Verif.Out.C136_erb",
    "Verif.Out.C136_a_weighting",
    "Verif.Out.C136_modal_energy",
    "Verif.Out.C136_hz2cams",
    "Verif.Out.C136_cams2hz",
    "Verif.Out.C136_semisum",
    "Verif.Out.C136_semidiff",
    "Verif.Out.C136_a2db_floor",
    "Verif.Out.C136_envelope",
    "Verif.Out.C136_envelope_int",
    "Verif.Out.C136_hinge",
    "Verif.Out.C136_hinge_keywords",
    "Verif.Out.C136_hwr",
    "Verif.Out.C136_hwr_float",
    "Verif.Out.C136_normalize_int",
    "Verif.Out.C136_normalize",
    "Verif.Out.C136_refuses",
    "Verif.Out.C136_both",
    "Verif.Out.C136_sequences",
    "Verif.Out.C136_erb_wraps",
    "Verif.Out.C136_erb_int16",
    "Verif.Out.C136_hz2cams_int16",
    "Verif.Out.C136_cams2hz_uint8",
    "Verif.Out.C136_semisum_bool",
    "Verif.Out.C136_semisum_uint8"
   ],
   "note": "Complex numbers are not modelled (`expi`, `complex2db`, the analytic `wavefun`), nor the widths and rounding of floating-point numbers. The rule for Python integers is a parameter; the assumptions on it are proved for the rules of NumPy 1 (arrays) and NumPy 2."
  },
  {
   "property": "C137",
   "status": "proved",
   "theorems": [
    "Verif.Float.C137_refine",
    "Verif.Float.C137_freq"
   ],
   "note": "The interpolated phase is not modelled in floating point."
  },
  {
   "property": "C138",
   "status": "proved",
   "theorems": [
    "Verif.Float.C138_peak",
    "Verif.Float.C138_range",
    "Verif.Float.C138_rest"
   ],
   "note": "In mode rms the mean and the standard deviation are parameters, as NumPy adds in an order of its own."
  },
  {
   "property": "C139",
   "status": "proved",
   "theorems": [
    "Verif.Float.C139_bracket",
    "Verif.Float.C139_zero",
    "Verif.Float.C139_error",
    "Verif.Float.C139_underflow"
   ],
   "note": ""
  },
  {
   "property": "C140",
   "status": "proved",
   "theorems": [
    "Verif.Float.C140_feasible",
    "Verif.Float.C140_infeasible"
   ],
   "note": ""
  },
  {
   "property": "C141",
   "status": "proved",
   "theorems": [
    "Verif.Float.C141_am",
    "Verif.Float.C141_fm",
    "Verif.Float.C141_accuracy",
    "Verif.Float.C141_real",
    "Verif.Float.C141_cancel"
   ],
   "note": ""
  },
  {
   "property": "C142",
   "status": "proved",
   "theorems": [
    "Verif.Float.C142_f2bin",
    "Verif.Float.C142_roundtrip",
    "Verif.Float.C142_power",
    "Verif.Float.C142_off",
    "Verif.Float.C142_corners"
   ],
   "note": ""
  },
  {
   "property": "C143",
   "status": "proved",
   "theorems": [
    "Verif.Float.C143_synth",
    "Verif.Float.C143_empty"
   ],
   "note": "The analytic (complex) oscillator and broadcasting are not in the floating-point model."
  },
  {
   "property": "C144",
   "status": "proved",
   "theorems": [
    "Verif.Float.C144_energy",
    "Verif.Float.C144_select",
    "Verif.Float.C144_order"
   ],
   "note": ""
  },
  {
   "property": "C145",
   "status": "proved",
   "theorems": [
    "Verif.Psycho.Attrs.C145_values",
    "Verif.Psycho.Attrs.C145_scale",
    "Verif.Psycho.Attrs.C145_group_delay",
    "Verif.Psycho.Attrs.C145_circle",
    "Verif.Psycho.C145_carrier",
    "Verif.Psycho.C145_trough"
   ],
   "note": ""
  },
  {
   "property": "C146",
   "status": "proved",
   "theorems": [
    "Verif.Float.C146_step",
    "Verif.Float.C146_fit",
    "Verif.Float.C146_threshold",
    "Verif.Float.C146_constant",
    "Verif.Float.C146_length",
    "Verif.Float.C146_same",
    "Verif.Float.C146_constant_same",
    "Verif.Float.C146_off",
    "Verif.Float.C146_length_off"
   ],
   "note": "Greedy matching with exact distances for the computed threshold; equality with the exact tracker where no decision is within the rounding error."
  },
  {
   "property": "C147",
   "status": "proved",
   "theorems": [
    "Verif.Float.C147_total",
    "Verif.Float.C147_shape",
    "Verif.Float.C147_step",
    "Verif.Float.C147_unknown",
    "Verif.Float.C147_finish",
    "Verif.Float.C147_single",
    "Verif.Float.C147_average",
    "Verif.Float.C147_accept",
    "Verif.Float.C147_agree",
    "Verif.Float.C147_nan",
    "Verif.Float.C147_mean",
    "Verif.Float.C147_strip",
    "Verif.Float.C147_strip_error",
    "Verif.Float.C147_same"
   ],
   "note": "Library results are a parameter; it is assumed that they do not raise. Error bounds of the least-squares line are hypotheses."
  },
  {
   "property": "C148",
   "status": "proved",
   "theorems": [
    "Verif.Float.C148_peaks",
    "Verif.Float.C148_end_to_end",
    "Verif.Float.C148_no_memory",
    "Verif.Float.C148_errors"
   ],
   "note": "Libraries are a parameter and are assumed not to raise; a computed window sum of zero (NaN and infinities in NumPy) is an error in the model."
  },
  {
   "property": "C149",
   "status": "proved",
   "theorems": [
    "Verif.Float.C149_start",
    "Verif.Float.C149_errors",
    "Verif.Float.C149_gap"
   ],
   "note": "Library results are parameters (BeatLib); NaN and infinities other than the decay for slope zero are not modelled."
  },
  {
   "property": "C150",
   "status": "proved",
   "theorems": [
    "Verif.Float.C150_fit",
    "Verif.Float.C150_search",
    "Verif.Float.C150_short"
   ],
   "note": "Library results are parameters (SampleLib); NaN of the libraries other than stated is not modelled; the storages and keyword arguments are treated elsewhere (C63, C56)."
  },
  {
   "property": "C151",
   "status": "proved",
   "theorems": [
    "Verif.Est.C151_set",
    "Verif.Est.C151_new",
    "Verif.Est.C151_programs",
    "Verif.Est.C151_ends",
    "Verif.Est.C151_package",
    "Verif.Est.C151_names",
    "Verif.Est.C151_today",
    "Verif.Est.C151_sample"
   ],
   "note": "Arguments are no estimators (as in C100); warnings are counted in C31; converters (safe_sine_len, sine_tracker_cls) are modelled and excluded by the definition of the names of today."
  },
  {
   "property": "C152",
   "status": "proved",
   "theorems": [
    "Verif.Float.C152_predict",
    "Verif.Float.C152_blocks"
   ],
   "note": "The default order only (the others are exact, C24); broadcasting of phases and the analytic output are in C25."
  },
  {
   "property": "C153",
   "status": "proved",
   "theorems": [
    "Verif.Sample.C153_phases",
    "Verif.Sample.C153_predict",
    "Verif.Sample.C153_waves",
    "Verif.Sample.C153_bound",
    "Verif.Sample.C153_errors",
    "Verif.Sample.C153_unseeded",
    "Verif.Sample.C153_blocks",
    "Verif.Sample.C153_loss"
   ],
   "note": "The generator of NumPy is a state, a step and a number in [0, 1) for each state; `uniform` takes one step for each value."
  },
  {
   "property": "C154",
   "status": "proved",
   "theorems": [
    "Verif.Beat.C154_call",
    "Verif.Beat.C154_agree",
    "Verif.Beat.C154_interrupted",
    "Verif.Beat.C154_history",
    "Verif.Beat.C154_default",
    "Verif.Beat.C154_mixed",
    "Verif.Beat.C154_stale",
    "Verif.Beat.C154_predict",
    "Verif.Beat.C154_errors"
   ],
   "note": "An interruption is a prefix of the trace of assignments. `ModalBeat` of the fitted parameters is taken not to raise."
  },
  {
   "property": "C155",
   "status": "proved",
   "theorems": [
    "Verif.Beat.C155_drawn",
    "Verif.Beat.C155_errors",
    "Verif.Beat.C155_labels",
    "Verif.Beat.C155_envelope",
    "Verif.Beat.C155_signal"
   ],
   "note": "The preprocessed track (C20) is an argument with finite values; drawing, titles, legends and grids are not modelled. The floor of the float quotient in the envelope step is the integer quotient (exact below 2^53 samples)."
  },
  {
   "property": "C156",
   "status": "proved",
   "theorems": [
    "Verif.Beat.C156_amplitude",
    "Verif.Beat.C156_amplitude_only",
    "Verif.Beat.C156_aliasing",
    "Verif.Beat.C156_both",
    "Verif.Beat.C156_both_only",
    "Verif.Beat.C156_residuals",
    "Verif.Beat.C156_residuals_amplitude",
    "Verif.Beat.C156_recover"
   ],
   "note": "Real numbers without rounding. Decay times may be any number but zero. That no instantaneous frequency is negative is a premise of `C156_recover` only, because `_residual_fn` compares absolute values."
  },
  {
   "property": "C157",
   "status": "proved",
   "theorems": [
    "Verif.Sample.C157_line",
    "Verif.Sample.C157_limits",
    "Verif.Sample.C157_exact",
    "Verif.Sample.C157_half",
    "Verif.Sample.C157_sixth",
    "Verif.Sample.C157_quarter",
    "Verif.Sample.C157_iff"
   ],
   "note": "Real numbers without rounding; the knee is at a frame. `share` and `miss` are tied to the least-squares line by `C157_line`."
  },
  {
   "property": "C158",
   "status": "proved",
   "theorems": [
    "Verif.Hinge.C158_success",
    "Verif.Hinge.C158_outcome",
    "Verif.Hinge.C158_failure",
    "Verif.Hinge.C158_single",
    "Verif.Hinge.C158_predict",
    "Verif.Hinge.C158_history",
    "Verif.Hinge.C158_refit"
   ],
   "note": "The linear regressor is any function of its previous state; least_squares is its check of the starting value and any search (as in C28)."
  },
  {
   "property": "C159",
   "status": "proved",
   "theorems": [
    "Verif.Sample.Hist.C159_return",
    "Verif.Sample.Hist.C159_raise",
    "Verif.Sample.Hist.C159_track_failure",
    "Verif.Sample.Hist.C159_forget",
    "Verif.Sample.Hist.C159_quiet",
    "Verif.Sample.Hist.C159_history",
    "Verif.Sample.Hist.C159_rows",
    "Verif.Sample.Hist.C159_settings",
    "Verif.Sample.Hist.C159_stale"
   ],
   "note": "Storages and `w_` are left out; tracks are processed one after the other (C56 covers pools); what is left of a tracker inside an update is any state. `C159_stale` is the witness for what is not guaranteed."
  },
  {
   "property": "C160",
   "status": "proved",
   "theorems": [
    "Verif.Out.Nd.C160_fits",
    "Verif.Out.Nd.C160_entry",
    "Verif.Out.Nd.C160_result",
    "Verif.Out.Nd.C160_mismatch",
    "Verif.Out.Nd.C160_keywords",
    "Verif.Out.Nd.C160_functions",
    "Verif.Out.Nd.C160_one",
    "Verif.Out.Nd.C160_two",
    "Verif.Out.Nd.C160_order",
    "Verif.Out.Nd.C160_wavefun_scalar",
    "Verif.Out.Nd.C160_wavefun",
    "Verif.Out.Nd.C160_wavefun_mismatch"
   ],
   "note": "Without the three normalisations, which reduce over all axes. Data types are not modelled. `C160_order` and `C160_wavefun_scalar` are the negative parts."
  },
  {
   "property": "C161",
   "status": "proved",
   "theorems": [
    "Verif.Float.C161_index",
    "Verif.Float.C161_shown",
    "Verif.Float.C161_load",
    "Verif.Float.C161_reloads",
    "Verif.Float.C161_settles",
    "Verif.Float.C161_double",
    "Verif.Float.C161_power",
    "Verif.Float.C161_drift"
   ],
   "note": "`float(str(t)) = t` is assumed. The exact product of Widgets/TrimModel is fed with the quotient of the rounded product. `C161_drift` is the witness for what is not guaranteed."
  },
  {
   "property": "C162",
   "status": "proved",
   "theorems": [
    "Verif.Float.C162_window",
    "Verif.Float.C162_window_empty",
    "Verif.Float.C162_hop",
    "Verif.Float.C162_hop_near",
    "Verif.Float.C162_hop_exact",
    "Verif.Float.C162_hop_off",
    "Verif.Float.C162_overlap",
    "Verif.Float.C162_overlap_mono"
   ],
   "note": "Of `scipy.signal.stft` only the check `noverlap < nperseg` is modelled. The rest of the remapper is C29."
  },
  {
   "property": "C163",
   "status": "proved",
   "theorems": [
    "Verif.Float.C163_exact",
    "Verif.Float.C163_double",
    "Verif.Float.C163_range",
    "Verif.Float.C163_off"
   ],
   "note": "The selection of the frames is C41. The integer product of NumPy has no limit in the model (it would wrap at 2^63)."
  },
  {
   "property": "C164",
   "status": "proved",
   "theorems": [
    "Verif.Float.C164_twosides",
    "Verif.Float.C164_beat",
    "Verif.Float.C164_decay",
    "Verif.Float.C164_snr",
    "Verif.Float.C164_amps",
    "Verif.Float.C164_off"
   ],
   "note": "Draws and the amplitudes of the drawn levels (`db2a`) are arguments. The conversion from and to Bark, and with it the limits of the frequencies, is not in floating point; without rounding it is C55."
  },
  {
   "property": "C165",
   "status": "proved",
   "theorems": [
    "Verif.Psycho.C165_given",
    "Verif.Psycho.C165_computed",
    "Verif.Psycho.C165_silence",
    "Verif.Psycho.C165_bare",
    "Verif.Psycho.C165_size"
   ],
   "note": "The short-time transform of SciPy is any function with the four laws `IsStft`; `power=None` is C73_complex for each column. Exact arithmetic."
  },
  {
   "property": "C166",
   "status": "proved",
   "theorems": [
    "Verif.Psycho.C166_precompute",
    "Verif.Psycho.C166_reuse",
    "Verif.Psycho.C166_method",
    "Verif.Psycho.C166_options",
    "Verif.Psycho.C166_ignored",
    "Verif.Psycho.C166_postprocess",
    "Verif.Psycho.C166_second",
    "Verif.Psycho.C166_rows"
   ],
   "note": "The deprecated name `analytical` is renamed by a decorator (Utils/DeprecatedModel) and is not a keyword here. Convolutions are exact."
  },
  {
   "property": "C167",
   "status": "proved",
   "theorems": [
    "Verif.Out.C167_mono",
    "Verif.Out.C167_channels",
    "Verif.Out.C167_refused",
    "Verif.Out.C167_exchanged",
    "Verif.Out.C167_format",
    "Verif.Out.C167_missing",
    "Verif.Out.C167_page"
   ],
   "note": "`json.dumps` and the text of a number are arguments. Fields with conversions, formats or attributes are not in the templates of the project and not modelled. What a browser does with the page is not modelled."
  },
  {
   "property": "C168",
   "status": "proved",
   "theorems": [
    "Verif.Tab.C168_rows",
    "Verif.Tab.C168_twice",
    "Verif.Tab.C168_all",
    "Verif.Tab.C168_spacer",
    "Verif.Tab.C168_silent",
    "Verif.Tab.C168_other",
    "Verif.Tab.C168_only_clears",
    "Verif.Tab.C168_tabs",
    "Verif.Tab.C168_nothing",
    "Verif.Tab.C168_project"
   ],
   "note": "Widgets are names; what Tk does in `selection_clear` is an arbitrary exception or none. The list of settings of the project is copied by hand (names and spacers)."
  },
  {
   "property": "C169",
   "status": "proved",
   "theorems": [
    "Verif.Beat.C169_quartile",
    "Verif.Beat.C169_progression",
    "Verif.Beat.C169_limits",
    "Verif.Beat.C169_unchanged",
    "Verif.Beat.C169_invariant",
    "Verif.Beat.C169_order",
    "Verif.Beat.C169_middle",
    "Verif.Beat.C169_constant",
    "Verif.Beat.C169_negative",
    "Verif.Beat.C169_nan",
    "Verif.Beat.C169_exact",
    "Verif.Beat.C169_fit",
    "Verif.Beat.C169_witness"
   ],
   "note": "np.quantile is linear interpolation in the sorted array (the values of an empty track, where NumPy versions differ, are zero; there is nothing to limit then). Exact arithmetic."
  },
  {
   "property": "C170",
   "status": "proved",
   "theorems": [
    "Verif.Dsp.C170_level",
    "Verif.Dsp.C170_phase",
    "Verif.Dsp.C170_floor",
    "Verif.Dsp.C170_order",
    "Verif.Dsp.C170_linear",
    "Verif.Dsp.C170_panel",
    "Verif.Dsp.C170_raw",
    "Verif.Dsp.C170_twice",
    "Verif.Dsp.C170_error"
   ],
   "note": "scipy.signal.stft is an arbitrary function of signal and keyword arguments; floors are scalars; minus infinity is `none`. Drawing itself is not modelled."
  },
  {
   "property": "C171",
   "status": "proved",
   "theorems": [
    "Verif.Plots.C171_options",
    "Verif.Plots.C171_shows",
    "Verif.Plots.C171_rate",
    "Verif.Plots.C171_empty",
    "Verif.Plots.C171_heading",
    "Verif.Plots.C171_resynthesis"
   ],
   "note": "`audioWidget` states what IPython.display.Audio checks of flat samples (rate given, samples present, range without normalisation); rates are not checked further. HTML and display options are passed on and not modelled."
  },
  {
   "property": "C172",
   "status": "proved",
   "theorems": [
    "Verif.Timer.C172_plain",
    "Verif.Timer.C172_message",
    "Verif.Timer.C172_two",
    "Verif.Timer.C172_numbered",
    "Verif.Timer.C172_mixed",
    "Verif.Timer.C172_mixed_after",
    "Verif.Timer.C172_name",
    "Verif.Timer.C172_brace",
    "Verif.Timer.C172_displays",
    "Verif.Timer.C172_raises",
    "Verif.Timer.C172_late",
    "Verif.Timer.C172_shift"
   ],
   "note": "The text of a number with decimal places is an arbitrary function; fields with conversions, format specifiers or attributes are taken as names."
  },
  {
   "property": "C173",
   "status": "proved",
   "theorems": [
    "Verif.Scripts.Write.C173_file",
    "Verif.Scripts.Write.C173_screen",
    "Verif.Scripts.Write.C173_open",
    "Verif.Scripts.Write.C173_restored",
    "Verif.Scripts.Write.C173_after",
    "Verif.Scripts.Write.C173_same",
    "Verif.Scripts.Write.C173_both",
    "Verif.Scripts.Write.C173_paths",
    "Verif.Scripts.Write.C173_report",
    "Verif.Scripts.Write.C173_report_raises",
    "Verif.Scripts.Write.C173_report_cut"
   ],
   "note": "Lines end with \\n only (str.splitlines knows more separators); the buffer of an open file is not modelled: the file has what was written when it is closed. The text of the comparisons is an arbitrary list of lines."
  },
  {
   "property": "C174",
   "status": "proved",
   "theorems": [
    "Verif.Utils.Named.C174_call",
    "Verif.Utils.Named.C174_name",
    "Verif.Utils.Named.C174_chain",
    "Verif.Utils.Named.C174_callable",
    "Verif.Utils.Named.C174_subclass"
   ],
   "note": "Other objects are an arbitrary type with an arbitrary partial call; subclasses have no methods of their own."
  },
  {
   "property": "C175",
   "status": "proved",
   "theorems": [
    "Verif.Widgets.Style.C175_value",
    "Verif.Widgets.Style.C175_key",
    "Verif.Widgets.Style.C175_legend",
    "Verif.Widgets.Style.C175_option",
    "Verif.Widgets.Style.C175_toolbar",
    "Verif.Widgets.Style.C175_each"
   ],
   "note": "The looked up style and matplotlib.colors.is_color_like are arbitrary functions; what Tk does with an option is not modelled."
  }
 ]
}