{
 "claims": [
  {
   "property": "C01",
   "status": "proved",
   "theorems": [
    "Verif.Props.C01_partition"
   ],
   "note": ""
  },
  {
   "property": "C02",
   "status": "proved",
   "theorems": [
    "Verif.Props.C02_same_group"
   ],
   "note": ""
  },
  {
   "property": "C03",
   "status": "proved",
   "theorems": [
    "Verif.Props.C03_sorted",
    "Verif.Props.C03_order_independent",
    "Verif.Props.C03_number_components",
    "Verif.Props.C03_fails_iff"
   ],
   "note": ""
  },
  {
   "property": "C04",
   "status": "partial",
   "theorems": [
    "Verif.Props.C04_snapped_partial",
    "Verif.Props.C04_after_end_fails",
    "Verif.Props.C04_counterexample"
   ],
   "note": "Holds for every onset that is not after the last sample; after it the call fails with IndexError (C04_after_end_fails, C04_counterexample)."
  },
  {
   "property": "C05",
   "status": "proved",
   "theorems": [
    "Verif.Props.C05_rejects",
    "Verif.Props.C05_accepts"
   ],
   "note": ""
  },
  {
   "property": "C06",
   "status": "proved",
   "theorems": [
    "Verif.Props.C06_default_normalize"
   ],
   "note": ""
  },
  {
   "property": "C07",
   "status": "partial",
   "theorems": [
    "Verif.Props.C07_frame_partial",
    "Verif.Props.C07_response_partial",
    "Verif.Props.C07_counterexample"
   ],
   "note": "All traces other than responses and source are untouched; the source trace is cut and tapered in place if it is not a response (C07_counterexample)."
  },
  {
   "property": "C08",
   "status": "proved",
   "theorems": [
    "Verif.Props.C08_documented",
    "Verif.Props.C08_covers"
   ],
   "note": ""
  },
  {
   "property": "C09",
   "status": "proved",
   "theorems": [
    "Verif.Props.C09_values",
    "Verif.Props.C09_energy"
   ],
   "note": ""
  },
  {
   "property": "C10",
   "status": "proved",
   "theorems": [
    "Verif.Props.C10_length",
    "Verif.Props.C10_no_assertion"
   ],
   "note": ""
  },
  {
   "property": "C11",
   "status": "partial",
   "theorems": [
    "Verif.Props.C11_alignment_partial",
    "Verif.Props.C11_exact",
    "Verif.Props.C11_counterexample"
   ],
   "note": "Holds for source windows with an odd number of samples and for even windows containing the onset strictly inside; off by one sample otherwise (C11_exact, C11_counterexample)."
  },
  {
   "property": "C12",
   "status": "proved",
   "theorems": [
    "Verif.Props.C12_unique_solution"
   ],
   "note": ""
  },
  {
   "property": "C13",
   "status": "proved",
   "theorems": [
    "Verif.Props.C13_linear",
    "Verif.Props.C13_normalised",
    "Verif.Props.C13_scale_invariant"
   ],
   "note": ""
  },
  {
   "property": "C14",
   "status": "proved",
   "theorems": [
    "Verif.Props.C14_self_deconvolution"
   ],
   "note": ""
  },
  {
   "property": "C15",
   "status": "proved",
   "theorems": [
    "Verif.Props.C15_succeeds",
    "Verif.Props.C15_bounded"
   ],
   "note": ""
  },
  {
   "property": "C16",
   "status": "proved",
   "theorems": [
    "Verif.Props.C16_exact_division"
   ],
   "note": ""
  },
  {
   "property": "C17",
   "status": "proved",
   "theorems": [
    "Verif.Props.C17_peak_at_tshift",
    "Verif.Props.C17_normalised"
   ],
   "note": ""
  },
  {
   "property": "C18",
   "status": "proved",
   "theorems": [
    "Verif.Props.C18_circular_delay",
    "Verif.Props.C18_gauss_range"
   ],
   "note": ""
  },
  {
   "property": "C19",
   "status": "partial",
   "theorems": [
    "Verif.Props.C19_real_outputs",
    "Verif.Props.C19_linear",
    "Verif.Props.C19_scale_invariant",
    "Verif.Props.C19_maximum_one_partial",
    "Verif.Props.C19_counterexample"
   ],
   "note": "Linearity, invariance under rescaling and realness are proved in full; 'the maximum of result i is 1' is proved when the unnormalised result i has a positive sample and refuted (C19_counterexample) otherwise: an all-negative result flips its sign and its maximum exceeds 1."
  },
  {
   "property": "C20",
   "status": "proved",
   "theorems": [
    "Verif.Props.C20_misfit_decreases"
   ],
   "note": ""
  },
  {
   "property": "C21",
   "status": "proved",
   "theorems": [
    "Verif.Props.C21_stop",
    "Verif.Props.C21_zero_response",
    "Verif.Props.C21_succeeds"
   ],
   "note": ""
  },
  {
   "property": "C22",
   "status": "proved",
   "theorems": [
    "Verif.Props.C22_admissible_spikes",
    "Verif.Props.C22_output"
   ],
   "note": ""
  },
  {
   "property": "C23",
   "status": "proved",
   "theorems": [
    "Verif.Props.C23_greedy"
   ],
   "note": ""
  },
  {
   "property": "C24",
   "status": "partial",
   "theorems": [
    "Verif.Props.C24_no_failure_partial",
    "Verif.Props.C24_one_point",
    "Verif.Props.C24_counterexample",
    "Verif.Props.C24_counterexample_noise"
   ],
   "note": "Proved that no shape mismatch or division by a window count occurs under explicit conditions on the lengths (C24_no_failure_partial); the unconditional claim is false: C24_counterexample (the source loop has no je < nft guard), C24_counterexample_noise (noise without a window)."
  },
  {
   "property": "C25",
   "status": "proved",
   "theorems": [
    "Verif.Props.C25_reversal_and_shift",
    "Verif.Props.C25_zero_time"
   ],
   "note": ""
  },
  {
   "property": "C26",
   "status": "proved",
   "theorems": [
    "Verif.Props.C26_damped",
    "Verif.Props.C26_noise_nonneg",
    "Verif.Props.C26_result"
   ],
   "note": ""
  },
  {
   "property": "C27",
   "status": "proved",
   "theorems": [
    "Verif.Props.C27_knots",
    "Verif.Props.C27_missing_number",
    "Verif.Props.C27_monotone"
   ],
   "note": ""
  },
  {
   "property": "C28",
   "status": "proved",
   "theorems": [
    "Verif.Props.C28_layers",
    "Verif.Props.C28_delay_times",
    "Verif.Props.C28_common_phases",
    "Verif.Props.C28_only_letters"
   ],
   "note": ""
  },
  {
   "property": "C29",
   "status": "proved",
   "theorems": [
    "Verif.Props.C29_nonneg_monotone",
    "Verif.Props.C29_tables_sorted"
   ],
   "note": ""
  },
  {
   "property": "C30",
   "status": "partial",
   "theorems": [
    "Verif.Props.C30_same_ref_partial",
    "Verif.Props.C30_stale",
    "Verif.Props.C30_counterexample"
   ],
   "note": "False in general: the cached reference times ignore ref (C30_stale, C30_counterexample). Proved for histories that use the same reference for the phase."
  },
  {
   "property": "C31",
   "status": "partial",
   "theorems": [
    "Verif.Props.C31_no_nan_partial",
    "Verif.Props.C31_counterexample"
   ],
   "note": "False in general (C31_counterexample): the reference table may contain NaN. Proved if every layer that is evanescent for the reference slowness is evanescent for the trace slowness and the uppermost layer propagates."
  },
  {
   "property": "C32",
   "status": "proved",
   "theorems": [
    "Verif.Props.C32_knots",
    "Verif.Props.C32_monotone",
    "Verif.Props.C32_range"
   ],
   "note": ""
  },
  {
   "property": "C33",
   "status": "partial",
   "theorems": [
    "Verif.Props.C33_identity_partial",
    "Verif.Props.C33_counterexample",
    "Verif.Props.C33_s_multiple_partial",
    "Verif.Props.C33_same_table_partial"
   ],
   "note": "Proved for all phases but S multiples (with the sample at exactly the largest tabulated time excluded, np.interp returns the last sample there), and for S multiples if the table covers all samples; false otherwise (C33_counterexample)."
  },
  {
   "property": "C34",
   "status": "proved",
   "theorems": [
    "Verif.Props.C34_length_and_prefix",
    "Verif.Props.C34_succeeds"
   ],
   "note": ""
  },
  {
   "property": "C35",
   "status": "proved",
   "theorems": [
    "Verif.Props.C35_amplitudes"
   ],
   "note": ""
  },
  {
   "property": "C36",
   "status": "partial",
   "theorems": [
    "Verif.Props.C36_conversion_partial",
    "Verif.Props.C36_sp_is_ps",
    "Verif.Props.C36_counterexample",
    "Verif.Props.C36_moves_sample_partial"
   ],
   "note": "Proved for all phases but S multiples (P phases and Sp). False for S multiples, which are moved off by one sample (C36_counterexample)."
  },
  {
   "property": "C37",
   "status": "partial",
   "theorems": [
    "Verif.Props.C37_value_partial",
    "Verif.Props.C37_homogeneous_partial",
    "Verif.Props.C37_counterexample"
   ],
   "note": "The code is off by one layer: C37_value_partial gives the exact value it returns, C37_homogeneous_partial the case where both agree, C37_counterexample a depth where they differ."
  },
  {
   "property": "C38",
   "status": "proved",
   "theorems": [
    "Verif.Props.C38_monotone",
    "Verif.Props.C38_errors"
   ],
   "note": ""
  },
  {
   "property": "C39",
   "status": "partial",
   "theorems": [
    "Verif.Props.C39_rejects_partial",
    "Verif.Props.C39_first_trace",
    "Verif.Props.C39_counterexample"
   ],
   "note": "ValueError and no change of the offending and later traces is proved; earlier traces are already corrected (C39_counterexample)."
  },
  {
   "property": "C40",
   "status": "proved",
   "theorems": [
    "Verif.Props.C40_bookkeeping",
    "Verif.Props.C40_failure",
    "Verif.Props.C40_default_phase"
   ],
   "note": ""
  },
  {
   "property": "C41",
   "status": "partial",
   "theorems": [
    "Verif.Props.C41_explicit_partial",
    "Verif.Props.C41_derived",
    "Verif.Props.C41_counterexample"
   ],
   "note": "False for '' and 'PS', which the substring test lets through (C41_counterexample); proved for every other explicit string and for the method derived from the phase."
  },
  {
   "property": "C42",
   "status": "proved",
   "theorems": [
    "Verif.Props.C42_mirrored",
    "Verif.Props.C42_twice"
   ],
   "note": ""
  },
  {
   "property": "C43",
   "status": "proved",
   "theorems": [
    "Verif.Props.C43_sign",
    "Verif.Props.C43_before_deconvolution"
   ],
   "note": ""
  },
  {
   "property": "C44",
   "status": "proved",
   "theorems": [
    "Verif.Props.C44_labels"
   ],
   "note": ""
  },
  {
   "property": "C45",
   "status": "partial",
   "theorems": [
    "Verif.Props.C45_deconvolved_partial",
    "Verif.Props.C45_counterexample"
   ],
   "note": "False for incomplete records and with response_components (C45_counterexample); proved when every record of the prepared stream has two or three components and all traces are responses."
  },
  {
   "property": "C46",
   "status": "proved",
   "theorems": [
    "Verif.Props.C46_membership",
    "Verif.Props.C46_one_entry",
    "Verif.Props.C46_deconvolve_entry"
   ],
   "note": ""
  },
  {
   "property": "C47",
   "status": "proved",
   "theorems": [
    "Verif.Props.C47_one_per_id",
    "Verif.Props.C47_mean",
    "Verif.Props.C47_order_independent",
    "Verif.Props.C47_succeeds",
    "Verif.Props.C47_empty"
   ],
   "note": ""
  },
  {
   "property": "C48",
   "status": "partial",
   "theorems": [
    "Verif.Props.C48_metadata_partial",
    "Verif.Props.C48_counterexample"
   ],
   "note": "False: header of all stacked traces comes from the first trace of the stream (C48_counterexample); proved for the id of the first trace and for streams whose traces agree in these entries."
  },
  {
   "property": "C49",
   "status": "proved",
   "theorems": [
    "Verif.Props.C49_trim2",
    "Verif.Props.C49_slice2"
   ],
   "note": ""
  },
  {
   "property": "C50",
   "status": "proved",
   "theorems": [
    "Verif.Props.C50_one_per_bin",
    "Verif.Props.C50_mean",
    "Verif.Props.C50_outside",
    "Verif.Props.C50_succeeds"
   ],
   "note": ""
  },
  {
   "property": "C51",
   "status": "proved",
   "theorems": [
    "Verif.Props.C51_counts",
    "Verif.Props.C51_first_box"
   ],
   "note": ""
  },
  {
   "property": "C52",
   "status": "proved",
   "theorems": [
    "Verif.Props.C52_input_unchanged",
    "Verif.Props.C52_order_independent",
    "Verif.Props.C52_result_order"
   ],
   "note": ""
  },
  {
   "property": "C53",
   "status": "proved",
   "theorems": [
    "Verif.Props.C53_boxes",
    "Verif.Props.C53_increasing",
    "Verif.Props.C53_total_length"
   ],
   "note": ""
  },
  {
   "property": "C54",
   "status": "proved",
   "theorems": [
    "Verif.Props.C54_inside",
    "Verif.Props.C54_outside"
   ],
   "note": ""
  },
  {
   "property": "C55",
   "status": "proved",
   "theorems": [
    "Verif.Props.C55_complete",
    "Verif.Props.C55_distinct",
    "Verif.Props.C55_exactly_one",
    "Verif.Props.C55_documented"
   ],
   "note": ""
  },
  {
   "property": "C56",
   "status": "proved",
   "theorems": [
    "Verif.Props.C56_roundtrip"
   ],
   "note": "Assumptions: obspy_to_sac_header built from scratch holds none of the rf fields, get_sac_reftime does not read them, values representable (times for onset/event_time, no '-12345'); ObsPy stores the SAC header in the file and returns it unchanged."
  },
  {
   "property": "C57",
   "status": "proved",
   "theorems": [
    "Verif.Props.C57_roundtrip"
   ],
   "note": "Assumption: json.loads inverts json.dumps on dictionaries of numbers and strings; the Q writer/reader keeps the SH header."
  },
  {
   "property": "C58",
   "status": "partial",
   "theorems": [
    "Verif.Props.C58_counterexample",
    "Verif.Props.C58_counterexample_sac",
    "Verif.Props.C58_sac_partial",
    "Verif.Props.C58_sh_partial"
   ],
   "note": "False as stated (C58_counterexample, C58_counterexample_sac): old fields of the format specific header are not removed. Proved: absent headers stay absent iff their field was absent; COMMENT headers never come back if COMMENT is rewritten, removed or was absent."
  },
  {
   "property": "C59",
   "status": "partial",
   "theorems": [
    "Verif.Props.C59_codes_partial",
    "Verif.Props.C59_read",
    "Verif.Props.C59_other_formats",
    "Verif.Props.C59_counterexample_writer",
    "Verif.Props.C59_counterexample_twice"
   ],
   "note": "False as stated: a failing writer leaves ids as station codes, and a trace contained twice ends with IndexError and a wrong code. Proved for distinct traces, codes without dots in network/station and a succeeding writer; reading restores the codes; other formats never change codes."
  },
  {
   "property": "C60",
   "status": "partial",
   "theorems": [
    "Verif.Props.C60_index_partial",
    "Verif.Props.C60_other_formats",
    "Verif.Props.C60_writer_index",
    "Verif.Props.C60_counterexample"
   ],
   "note": "False as stated (C60_counterexample): not restored if the writer raises. Proved for every outcome except an exception of the writer."
  },
  {
   "property": "C61",
   "status": "partial",
   "theorems": [
    "Verif.Props.C61_none_iff",
    "Verif.Props.C61_explicit",
    "Verif.Props.C61_default",
    "Verif.Props.C61_counterexample",
    "Verif.Props.C61_no_default_partial",
    "Verif.Props.C61_stream",
    "Verif.Props.C61_keep"
   ],
   "note": "None iff out of range and stream filtering proved in full; the claim that other phases have no default is false for 'PS' and '' (substring test), proved for all other phases."
  },
  {
   "property": "C62",
   "status": "proved",
   "theorems": [
    "Verif.Props.C62_success",
    "Verif.Props.C62_no_arrival",
    "Verif.Props.C62_input"
   ],
   "note": ""
  },
  {
   "property": "C63",
   "status": "partial",
   "theorems": [
    "Verif.Props.C63_both_partial",
    "Verif.Props.C63_counterexample"
   ],
   "note": "False as stated (C63_counterexample): event or station given alone is ignored. Proved if both are given."
  },
  {
   "property": "C64",
   "status": "proved",
   "theorems": [
    "Verif.Props.C64_event",
    "Verif.Props.C64_station",
    "Verif.Props.C64_error"
   ],
   "note": ""
  },
  {
   "property": "C65",
   "status": "proved",
   "theorems": [
    "Verif.Props.C65_yield_iff",
    "Verif.Props.C65_skip_iff",
    "Verif.Props.C65_order"
   ],
   "note": ""
  },
  {
   "property": "C66",
   "status": "partial",
   "theorems": [
    "Verif.Props.C66_skip_partial",
    "Verif.Props.C66_others_partial",
    "Verif.Props.C66_abort_iff",
    "Verif.Props.C66_counterexample",
    "Verif.Props.C66_counterexample_none"
   ],
   "note": "False as stated (C66_counterexample: event without origin; C66_counterexample_none: data service returning None). Proved: exceptions of coordinates, rfstats and the data service skip only their pair; exact condition for the generator to stop."
  },
  {
   "property": "C67",
   "status": "partial",
   "theorems": [
    "Verif.Props.C67_complete",
    "Verif.Props.C67_attributes_partial",
    "Verif.Props.C67_window",
    "Verif.Props.C67_counterexample"
   ],
   "note": "False for the ray attributes of traces with SAC or SH header (C67_counterexample: header fields overwrite them). Proved: three traces, no gaps, request window, default windows; attributes for traces without such headers."
  },
  {
   "property": "C68",
   "status": "proved",
   "theorems": [
    "Verif.Props.C68_stations"
   ],
   "note": ""
  },
  {
   "property": "C69",
   "status": "proved",
   "theorems": [
    "Verif.Props.C69_isolated",
    "Verif.Props.C69_fresh",
    "Verif.Props.C69_answers"
   ],
   "note": ""
  },
  {
   "property": "C70",
   "status": "partial",
   "theorems": [
    "Verif.Props.C70_accepts",
    "Verif.Props.C70_canonical",
    "Verif.Props.C70_keyword_order",
    "Verif.Props.C70_position_or_keyword",
    "Verif.Props.C70_default",
    "Verif.Props.C70_appended",
    "Verif.Props.C70_transparent_partial",
    "Verif.Props.C70_computable",
    "Verif.Props.C70_counterexample"
   ],
   "note": "False for failures (C70_counterexample: boxes without profile raise KeyError before the function is called). Proved: entry depends on effective arguments only, keyword order, position/keyword, defaults, appended exactly once, transparent once the entry is computed, exact condition for computing it."
  },
  {
   "property": "C71",
   "status": "proved",
   "theorems": [
    "Verif.Props.C71_one_component"
   ],
   "note": ""
  },
  {
   "property": "C72",
   "status": "proved",
   "theorems": [
    "Verif.Props.C72_two_components"
   ],
   "note": ""
  },
  {
   "property": "C73",
   "status": "proved",
   "theorems": [
    "Verif.Props.C73_rotation_one",
    "Verif.Props.C73_rotation_two"
   ],
   "note": ""
  },
  {
   "property": "C74",
   "status": "partial",
   "theorems": [
    "Verif.Props.C74_counterexample",
    "Verif.Props.C74_short",
    "Verif.Props.C74_methods_partial"
   ],
   "note": "Proved (also for rank deficient systems and erroneous calls) if all traces used have as many samples as the first trace of the stream; otherwise false, see the counterexample: the loop runs over the samples of stream[0] only."
  },
  {
   "property": "C75",
   "status": "partial",
   "theorems": [
    "Verif.Props.C75_pairing_partial",
    "Verif.Props.C75_counterexample"
   ],
   "note": "Proved for streams with exactly one trace of each component for each event; false in general: traces are paired by their position after sorting, see the counterexample."
  },
  {
   "property": "C76",
   "status": "partial",
   "theorems": [
    "Verif.Props.C76_layout_partial",
    "Verif.Props.C76_counterexample_components",
    "Verif.Props.C76_distance_stays"
   ],
   "note": "All header entries of the result are characterised; false as stated: traces 5-8 lack 'components' (line 132 is outside the loop) and 'distance' of the first trace stays."
  },
  {
   "property": "C77",
   "status": "partial",
   "theorems": [
    "Verif.Props.C77_comments",
    "Verif.Props.C77_unchanged",
    "Verif.Props.C77_no_hash",
    "Verif.Props.C77_idempotent",
    "Verif.Props.C77_lines",
    "Verif.Props.C77_strings_partial",
    "Verif.Props.C77_counterexample"
   ],
   "note": "False for # inside JSON strings (C77_counterexample): the rest of the line is removed. C77_strings_partial: values without # survive."
  },
  {
   "property": "C78",
   "status": "partial",
   "theorems": [
    "Verif.Props.C78_override",
    "Verif.Props.C78_conf_read",
    "Verif.Props.C78_conf_print",
    "Verif.Props.C78_no_conf",
    "Verif.Props.C78_bad_conf",
    "Verif.Props.C78_effect_partial",
    "Verif.Props.C78_phase",
    "Verif.Props.C78_counterexample",
    "Verif.Props.C78_print_nothing",
    "Verif.Props.C78_phase_null",
    "Verif.Props.C78_phase_given"
   ],
   "note": "The dictionary is merged as stated (C78_override), but options and boxes from the command line are replaced by phase, moveout, boxbins and so on of the file (C78_counterexample); C78_effect_partial states when the command line value is effective."
  },
  {
   "property": "C79",
   "status": "partial",
   "theorems": [
    "Verif.Props.C79_unknown",
    "Verif.Props.C79_known",
    "Verif.Props.C79_repeated_partial",
    "Verif.Props.C79_others",
    "Verif.Props.C79_counterexample"
   ],
   "note": "Unknown options are rejected (C79_unknown). Repeated calc is accepted after data (C79_counterexample); C79_repeated_partial is the exact condition."
  },
  {
   "property": "C80",
   "status": "partial",
   "theorems": [
    "Verif.Props.C80_files_partial",
    "Verif.Props.C80_never_given",
    "Verif.Props.C80_counterexample"
   ],
   "note": "File names and pairs work; catalogs and lists of events are never used (C80_never_given, C80_counterexample)."
  },
  {
   "property": "C81",
   "status": "proved",
   "theorems": [
    "Verif.Props.C81_sac",
    "Verif.Props.C81_q",
    "Verif.Props.C81_stack",
    "Verif.Props.C81_profile"
   ],
   "note": ""
  },
  {
   "property": "C82",
   "status": "proved",
   "theorems": [
    "Verif.Props.C82_empty",
    "Verif.Props.C82_sac",
    "Verif.Props.C82_single",
    "Verif.Props.C82_unknown",
    "Verif.Props.C82_keeps"
   ],
   "note": ""
  },
  {
   "property": "C83",
   "status": "partial",
   "theorems": [
    "Verif.Props.C83_curves",
    "Verif.Props.C83_bound",
    "Verif.Props.C83_attained_trace",
    "Verif.Props.C83_attained_global",
    "Verif.Props.C83_filling",
    "Verif.Props.C83_harmonics_left",
    "Verif.Props.C83_harmonics_unmodelled",
    "Verif.Props.C83_harmonics_right_partial",
    "Verif.Props.C83_counterexample",
    "Verif.Props.C83_profile"
   ],
   "note": "Bounds are proved for plot_rf with both scalings (attained unless the data vanish), for plot_profile, for the left panel of plot_harmonics and for the unmodelled traces in its right panel. False for a second stream: its scale is compared with the largest value of the first stream instead of its own (C83_counterexample); C83_harmonics_right_partial gives the case in which it holds."
  },
  {
   "property": "C84",
   "status": "proved",
   "theorems": [
    "Verif.Props.C84_full",
    "Verif.Props.C84_component",
    "Verif.Props.C84_station",
    "Verif.Props.C84_none"
   ],
   "note": ""
  },
  {
   "property": "C85",
   "status": "proved",
   "theorems": [
    "Verif.Props.C85_metadata"
   ],
   "note": ""
  },
  {
   "property": "C86",
   "status": "proved",
   "theorems": [
    "Verif.Props.C86_alias",
    "Verif.Props.C86_kernel_call"
   ],
   "note": ""
  },
  {
   "property": "C87",
   "status": "partial",
   "theorems": [
    "Verif.Props.C87_untouched",
    "Verif.Props.C87_rate_partial",
    "Verif.Props.C87_bounds",
    "Verif.Props.C87_counterexample"
   ],
   "note": "False for sampling rates which are no whole numbers: the rate is truncated before the division (2.5 Hz to 1.25 Hz stays at 2.5 Hz, 0.5 Hz to 0.25 Hz calls decimate with 0). Proved for whole rates, with bounds for all rates."
  },
  {
   "property": "C88",
   "status": "proved",
   "theorems": [
    "Verif.Props.C88_source_P",
    "Verif.Props.C88_source_S",
    "Verif.Props.C88_window",
    "Verif.Props.C88_method"
   ],
   "note": ""
  },
  {
   "property": "C89",
   "status": "partial",
   "theorems": [
    "Verif.Props.C89_estimate_partial",
    "Verif.Props.C89_tail_unused",
    "Verif.Props.C89_counterexample"
   ],
   "note": "Closed form of the estimate proved; covering is false: windows ending at or behind the last sample are dropped, so the end of the response has no influence (proved for all input and with a concrete pulse)."
  },
  {
   "property": "C90",
   "status": "proved",
   "theorems": [
    "Verif.Props.C90_middle",
    "Verif.Props.C90_middle_plane",
    "Verif.Props.C90_headers"
   ],
   "note": ""
  },
  {
   "property": "C91",
   "status": "proved",
   "theorems": [
    "Verif.Props.C91_rf",
    "Verif.Props.C91_profile",
    "Verif.Props.C91_no_type",
    "Verif.Props.C91_unknown"
   ],
   "note": ""
  },
  {
   "property": "C92",
   "status": "proved",
   "theorems": [
    "Verif.Props.C92_default",
    "Verif.Props.C92_explicit",
    "Verif.Props.C92_no_depth"
   ],
   "note": ""
  },
  {
   "property": "C93",
   "status": "proved",
   "theorems": [
    "Verif.Props.C93_processed",
    "Verif.Props.C93_run",
    "Verif.Props.C93_stop",
    "Verif.Props.C93_rejected"
   ],
   "note": ""
  },
  {
   "property": "C94",
   "status": "partial",
   "theorems": [
    "Verif.Props.C94_abort",
    "Verif.Props.C94_no_failure_partial",
    "Verif.Props.C94_prefix",
    "Verif.Props.C94_counterexample"
   ],
   "note": "False (C94_counterexample): the wrapper of init_data returns None, which raises AttributeError in iter_event_data (C94_abort for every failing pair). C94_prefix: what is yielded before is right."
  },
  {
   "property": "C95",
   "status": "partial",
   "theorems": [
    "Verif.Props.C95_default_partial",
    "Verif.Props.C95_edges_partial",
    "Verif.Props.C95_counterexample"
   ],
   "note": "False (C95_counterexample): n numbers give n-1 boxes; C95_edges_partial: the n edges are equally spaced from start to end."
  },
  {
   "property": "C96",
   "status": "proved",
   "theorems": [
    "Verif.Props.C96_create",
    "Verif.Props.C96_where"
   ],
   "note": ""
  },
  {
   "property": "C97",
   "status": "partial",
   "theorems": [
    "Verif.Props.C97_directory_partial",
    "Verif.Props.C97_parents",
    "Verif.Props.C97_dirname",
    "Verif.Props.C97_counterexample"
   ],
   "note": "False for SAC files of streams with several stations (C97_counterexample); holds for all other cases (C97_directory_partial)."
  },
  {
   "property": "C98",
   "status": "proved",
   "theorems": [
    "Verif.Props.C98_sac",
    "Verif.Props.C98_sac_station",
    "Verif.Props.C98_q",
    "Verif.Props.C98_h5",
    "Verif.Props.C98_profile"
   ],
   "note": ""
  },
  {
   "property": "C99",
   "status": "partial",
   "theorems": [
    "Verif.Props.C99_processed_partial",
    "Verif.Props.C99_counterexample"
   ],
   "note": "False for a format in lower case (C99_counterexample), which write accepts; C99_processed_partial for the keys of FNAMES."
  },
  {
   "property": "C100",
   "status": "proved",
   "theorems": [
    "Verif.Props.C100_layout",
    "Verif.Props.C100_height"
   ],
   "note": ""
  },
  {
   "property": "C101",
   "status": "proved",
   "theorems": [
    "Verif.Props.C101_times",
    "Verif.Props.C101_amplitudes"
   ],
   "note": ""
  },
  {
   "property": "C102",
   "status": "partial",
   "theorems": [
    "Verif.Props.C102_stack_partial",
    "Verif.Props.C102_counterexample"
   ],
   "note": "False: the stack is drawn at the times of the last trace of the stream (C102_counterexample). C102_stack_partial proves when the stack is drawn, its data, and that the times are right if the last trace agrees with the stack in sampling, length and time between start and onset."
  },
  {
   "property": "C103",
   "status": "partial",
   "theorems": [
    "Verif.Props.C103_vlines_partial",
    "Verif.Props.C103_nostack",
    "Verif.Props.C103_fails",
    "Verif.Props.C103_counterexample"
   ],
   "note": "False: show_traces=False with show_vlines=True uses an unbound name whenever the stream stacks to a single trace (C103_fails, C103_counterexample). C103_vlines_partial covers the other combinations."
  },
  {
   "property": "C104",
   "status": "partial",
   "theorems": [
    "Verif.Props.C104_horizontal_partial",
    "Verif.Props.C104_times",
    "Verif.Props.C104_vertical_partial",
    "Verif.Props.C104_counterexample",
    "Verif.Props.C104_fill"
   ],
   "note": "The horizontal limits are proved for all profiles. The vertical limits are those of the last trace only (C104_counterexample); C104_vertical_partial holds if all traces have the same times."
  },
  {
   "property": "C105",
   "status": "partial",
   "theorems": [
    "Verif.Props.C105_shifted_partial",
    "Verif.Props.C105_other",
    "Verif.Props.C105_counterexample"
   ],
   "note": "False: left edges are given to bar, which centres the bars, so that each bar ends at the middle of its box (C105_shifted_partial for all profiles, C105_counterexample). Number, order, width and height of the bars are proved."
  },
  {
   "property": "C106",
   "status": "partial",
   "theorems": [
    "Verif.Props.C106_given_partial",
    "Verif.Props.C106_model_partial",
    "Verif.Props.C106_sp_partial",
    "Verif.Props.C106_counterexample",
    "Verif.Props.C106_table_partial"
   ],
   "note": "False: the tick labelled with a depth is at the delay time of the next depth of the model (delay times are cumulative sums up to the bottom of each layer, depths are the tops), and for Sp all ticks are at negative times. Proved: exact position and error for increasing depths, sign for Sp, relation to the table, minor and major ticks, range. Missing: nothing of the exact behaviour for increasing depths without evanescent rays; with repeated depths only the table statement."
  },
  {
   "property": "C107",
   "status": "proved",
   "theorems": [
    "Verif.Props.C107_panels",
    "Verif.Props.C107_short",
    "Verif.Props.C107_digits",
    "Verif.Props.C107_labels",
    "Verif.Props.C107_untrimmed"
   ],
   "note": ""
  },
  {
   "property": "C108",
   "status": "proved",
   "theorems": [
    "Verif.Props.C108_info",
    "Verif.Props.C108_limits",
    "Verif.Props.C108_figure"
   ],
   "note": ""
  },
  {
   "property": "C109",
   "status": "partial",
   "theorems": [
    "Verif.Props.C109_print_partial",
    "Verif.Props.C109_counterexample",
    "Verif.Props.C109_cli"
   ],
   "note": "Counterexample proved: the object 'inventory' offered by the help text is taken as a file name; the keyword is 'stations'. The rest is proved."
  },
  {
   "property": "C110",
   "status": "proved",
   "theorems": [
    "Verif.Props.C110_wildcard",
    "Verif.Props.C110_plot",
    "Verif.Props.C110_missing",
    "Verif.Props.C110_profile"
   ],
   "note": ""
  },
  {
   "property": "C111",
   "status": "proved",
   "theorems": [
    "Verif.Props.C111_stations",
    "Verif.Props.C111_events",
    "Verif.Props.C111_source",
    "Verif.Props.C111_convert",
    "Verif.Props.C111_stack",
    "Verif.Props.C111_stack_stop",
    "Verif.Props.C111_plots",
    "Verif.Props.C111_profile",
    "Verif.Props.C111_process",
    "Verif.Props.C111_unknown"
   ],
   "note": ""
  },
  {
   "property": "C112",
   "status": "partial",
   "theorems": [
    "Verif.Props.C112_points_partial",
    "Verif.Props.C112_default_phase",
    "Verif.Props.C112_counterexample"
   ],
   "note": "False regarding the documented attributes plat and plon (pp_latitude and pp_longitude are written). Proved: everything else, including the default phase. The distance itself is wrong by one layer, see C37."
  },
  {
   "property": "C113",
   "status": "partial",
   "theorems": [
    "Verif.Props.C113_failure_partial",
    "Verif.Props.C113_success",
    "Verif.Props.C113_counterexample"
   ],
   "note": "False: traces before the offending one have been changed. Proved: exact state after a failure; success with complete headers, depth inside the model and propagating rays."
  },
  {
   "property": "C114",
   "status": "partial",
   "theorems": [
    "Verif.Props.C114_after_moveout_partial",
    "Verif.Props.C114_counterexample"
   ],
   "note": "False: moveout overwrites the slowness by the reference slowness which ppoints uses afterwards. Proved: the points after a correction are those of the reference slowness; equal to the original ones if the slowness of the trace is the reference slowness."
  },
  {
   "property": "C115",
   "status": "proved",
   "theorems": [
    "Verif.Props.C115_first_call",
    "Verif.Props.C115_cached",
    "Verif.Props.C115_rounding"
   ],
   "note": ""
  },
  {
   "property": "C116",
   "status": "partial",
   "theorems": [
    "Verif.Props.C116_lists_partial",
    "Verif.Props.C116_counterexample"
   ],
   "note": "False for lists without n (list ** -2 raises TypeError). Proved: lists are as good as arrays with n; exact condition for the error."
  },
  {
   "property": "C117",
   "status": "partial",
   "theorems": [
    "Verif.Props.C117_repeatable",
    "Verif.Props.C117_twice_partial",
    "Verif.Props.C117_counterexample"
   ],
   "note": "False: slowness_before_moveout holds the reference slowness after the second correction, and samples at or after the last tabulated delay time change. Proved: samples before the last tabulated delay time are unchanged (P phases), the second correction succeeds."
  },
  {
   "property": "C118",
   "status": "partial",
   "theorems": [
    "Verif.Props.C118_same_ref_partial",
    "Verif.Props.C118_each_trace",
    "Verif.Props.C118_succeeds",
    "Verif.Props.C118_counterexample"
   ],
   "note": "False: the reference delay times of a phase are computed once per session and model, with the reference of the first call. Proved: independence if all earlier corrections with the same model and phase used the same reference; independence of the other traces; success."
  },
  {
   "property": "C119",
   "status": "proved",
   "theorems": [
    "Verif.Props.C119_range",
    "Verif.Props.C119_wildcards",
    "Verif.Props.C119_client",
    "Verif.Props.C119_plugin",
    "Verif.Props.C119_files",
    "Verif.Props.C119_never_raises",
    "Verif.Props.C119_errors"
   ],
   "note": ""
  },
  {
   "property": "C120",
   "status": "partial",
   "theorems": [
    "Verif.Props.C120_reported_partial",
    "Verif.Props.C120_example",
    "Verif.Props.C120_counterexample"
   ],
   "note": "A source that is given but unusable is reported; without the option data the example waveforms of ObsPy are used silently (C120_example, C120_counterexample)."
  },
  {
   "property": "C121",
   "status": "partial",
   "theorems": [
    "Verif.Props.C121_restored_partial",
    "Verif.Props.C121_failed",
    "Verif.Props.C121_foreign",
    "Verif.Props.C121_counterexample"
   ],
   "note": "Restored if the module can be imported and leaves sys.path alone; after a failed import, or if the module appends to the path, '.' stays in sys.path (C121_failed, C121_foreign, C121_counterexample)."
  },
  {
   "property": "C122",
   "status": "partial",
   "theorems": [
    "Verif.Props.C122_nothing",
    "Verif.Props.C122_plain_partial",
    "Verif.Props.C122_counterexample"
   ],
   "note": "A plugin without event works like its client; the documented one never delivers a stream since event is not passed: its KeyError becomes None, which ends the program with AttributeError (C122_nothing, C122_counterexample)."
  },
  {
   "property": "C123",
   "status": "proved",
   "theorems": [
    "Verif.Props.C123_commands",
    "Verif.Props.C123_paths",
    "Verif.Props.C123_print",
    "Verif.Props.C123_unknown",
    "Verif.Props.C123_known",
    "Verif.Props.C123_run"
   ],
   "note": ""
  },
  {
   "property": "C124",
   "status": "partial",
   "theorems": [
    "Verif.Props.C124_no_command_partial",
    "Verif.Props.C124_counterexample"
   ],
   "note": "Never writes anything; but rf without command ends silently, or with NotImplementedError if processed data are found, instead of a usage error (C124_counterexample)."
  },
  {
   "property": "C125",
   "status": "proved",
   "theorems": [
    "Verif.Props.C125_traces",
    "Verif.Props.C125_idempotent",
    "Verif.Props.C125_single",
    "Verif.Props.C125_error",
    "Verif.Props.C125_read"
   ],
   "note": ""
  },
  {
   "property": "C126",
   "status": "proved",
   "theorems": [
    "Verif.Props.C126_plain",
    "Verif.Props.C126_parts",
    "Verif.Props.C126_after_rf",
    "Verif.Props.C126_profile",
    "Verif.Props.C126_total"
   ],
   "note": ""
  },
  {
   "property": "C127",
   "status": "partial",
   "theorems": [
    "Verif.Props.C127_stream",
    "Verif.Props.C127_inventory",
    "Verif.Props.C127_inventory_once_partial",
    "Verif.Props.C127_counterexample",
    "Verif.Props.C127_errors"
   ],
   "note": "Holds for streams and for inventories without repeated stations; stations repeated in an inventory (several epochs) are marked and labelled repeatedly (C127_counterexample)."
  },
  {
   "property": "C128",
   "status": "partial",
   "theorems": [
    "Verif.Props.C128_centre_partial",
    "Verif.Props.C128_order",
    "Verif.Props.C128_given",
    "Verif.Props.C128_counterexample"
   ],
   "note": "The centre is the median of longitudes and latitudes, thus between the stations in both coordinates; for stations on both sides of the date line it is on the other side of the earth (C128_counterexample)."
  },
  {
   "property": "C129",
   "status": "proved",
   "theorems": [
    "Verif.Props.C129_style",
    "Verif.Props.C129_ppoints",
    "Verif.Props.C129_profile",
    "Verif.Props.C129_success",
    "Verif.Props.C129_errors"
   ],
   "note": ""
  },
  {
   "property": "C130",
   "status": "partial",
   "theorems": [
    "Verif.Props.C130_records_partial",
    "Verif.Props.C130_one_phase",
    "Verif.Props.C130_counterexample"
   ],
   "note": "Data and header agree except for phase and processing (C130_records_partial); with a single phase also the phases (C130_one_phase). False for the phase in general: a PP record alone keeps PP, together with a P record it becomes P (C130_counterexample)."
  },
  {
   "property": "C131",
   "status": "proved",
   "theorems": [
    "Verif.Props.C131_success"
   ],
   "note": ""
  },
  {
   "property": "C132",
   "status": "partial",
   "theorems": [
    "Verif.Props.C132_stream",
    "Verif.Props.C132_rf_partial",
    "Verif.Props.C132_processing",
    "Verif.Props.C132_counterexample"
   ],
   "note": "stream.deconvolve proved in full (C132_stream). rf: only for functions that work in place (C132_rf_partial); rf drops the traces a function returns, so with a function that returns new traces the stream keeps data that were not deconvolved, labelled rf (C132_counterexample)."
  },
  {
   "property": "C133",
   "status": "partial",
   "theorems": [
    "Verif.Props.C133_time",
    "Verif.Props.C133_waterlevel_partial",
    "Verif.Props.C133_waterlevel_counterexample",
    "Verif.Props.C133_iterative_counterexample"
   ],
   "note": "proved for deconv_time and for deconv_waterlevel with normalization; false for deconv_waterlevel with normalize=None (the variable rf is unbound when a single array is returned) and for deconv_iterative, which rejects a single array"
  },
  {
   "property": "C134",
   "status": "partial",
   "theorems": [
    "Verif.Props.C134_results",
    "Verif.Props.C134_src_partial",
    "Verif.Props.C134_counterexample",
    "Verif.Props.C134_counterexample_none"
   ],
   "note": "results and the case normalize='src' proved; false for an index (info['norm'] is 1, the factor of the result is another one) and for normalize=None (unbound variables)"
  },
  {
   "property": "C135",
   "status": "proved",
   "theorems": [
    "Verif.Props.C135_any_source",
    "Verif.Props.C135_recovers",
    "Verif.Props.C135_linear"
   ],
   "note": ""
  },
  {
   "property": "C136",
   "status": "proved",
   "theorems": [
    "Verif.Props.C136_one_spike",
    "Verif.Props.C136_position",
    "Verif.Props.C136_pulse"
   ],
   "note": ""
  },
  {
   "property": "C137",
   "status": "proved",
   "theorems": [
    "Verif.Props.C137_kernels",
    "Verif.Props.C137_same_outcome",
    "Verif.Props.C137_same_result",
    "Verif.Props.C137_not_normalized"
   ],
   "note": "ObsPy's filter, cut, downsampling, rotation and taper enter as parameters that commute with a factor; without normalisation the time domain result scales (C137_not_normalized)"
  },
  {
   "property": "C138",
   "status": "proved",
   "theorems": [
    "Verif.Props.C138_later",
    "Verif.Props.C138_moveout",
    "Verif.Props.C138_stack"
   ],
   "note": ""
  },
  {
   "property": "C139",
   "status": "proved",
   "theorems": [
    "Verif.Props.C139_linear",
    "Verif.Props.C139_mean"
   ],
   "note": ""
  },
  {
   "property": "C140",
   "status": "partial",
   "theorems": [
    "Verif.Props.C140_rf_partial",
    "Verif.Props.C140_profile_partial",
    "Verif.Props.C140_stack_partial",
    "Verif.Props.C140_harmonics_fails",
    "Verif.Props.C140_counterexample"
   ],
   "note": "False for harmonics: C140_harmonics_fails / C140_counterexample (type 'harmonic' is not in _H5INDEX, KeyError for every result). Proved for rf, profile and stack (C140_rf_partial, C140_profile_partial, C140_stack_partial)."
  },
  {
   "property": "C141",
   "status": "proved",
   "theorems": [
    "Verif.Props.C141_twice"
   ],
   "note": ""
  },
  {
   "property": "C142",
   "status": "proved",
   "theorems": [
    "Verif.Props.C142_equation",
    "Verif.Props.C142_exact",
    "Verif.Props.C142_bound"
   ],
   "note": ""
  },
  {
   "property": "C143",
   "status": "proved",
   "theorems": [
    "Verif.Props.C143_waterlevel",
    "Verif.Props.C143_time"
   ],
   "note": ""
  },
  {
   "property": "C144",
   "status": "partial",
   "theorems": [
    "Verif.Props.C144_kernels",
    "Verif.Props.C144_counterexample",
    "Verif.Props.C144_order_partial"
   ],
   "note": "False if the source component is not among response_components and no normalisation is given (the first response of the stream is then used), or if normalize is the number of a response: C144_counterexample. Proved for all other calls (C144_order_partial, C144_kernels for the four kernels of the package)."
  },
  {
   "property": "C145",
   "status": "proved",
   "theorems": [
    "Verif.Props.C145_record"
   ],
   "note": ""
  },
  {
   "property": "C146",
   "status": "proved",
   "theorems": [
    "Verif.Props.C146_waterlevel",
    "Verif.Props.C146_time"
   ],
   "note": ""
  },
  {
   "property": "C147",
   "status": "proved",
   "theorems": [
    "Verif.Props.C147_returns_iff",
    "Verif.Props.C147_waterlevel"
   ],
   "note": ""
  },
  {
   "property": "C148",
   "status": "proved",
   "theorems": [
    "Verif.Props.C148_failed"
   ],
   "note": ""
  },
  {
   "property": "C149",
   "status": "proved",
   "theorems": [
    "Verif.Props.C149_bins",
    "Verif.Props.C149_both",
    "Verif.Props.C149_one"
   ],
   "note": ""
  },
  {
   "property": "C150",
   "status": "proved",
   "theorems": [
    "Verif.Props.C150_linear"
   ],
   "note": ""
  },
  {
   "property": "C151",
   "status": "proved",
   "theorems": [
    "Verif.Props.C151_one_component",
    "Verif.Props.C151_two_components"
   ],
   "note": ""
  },
  {
   "property": "C152",
   "status": "proved",
   "theorems": [
    "Verif.Props.C152_turns",
    "Verif.Props.C152_order",
    "Verif.Props.C152_order_one"
   ],
   "note": ""
  },
  {
   "property": "C153",
   "status": "proved",
   "theorems": [
    "Verif.Props.C153_sublist",
    "Verif.Props.C153_failure",
    "Verif.Props.C153_bad_code"
   ],
   "note": ""
  },
  {
   "property": "C154",
   "status": "proved",
   "theorems": [
    "Verif.Props.C154_q",
    "Verif.Props.C154_sac"
   ],
   "note": ""
  },
  {
   "property": "C155",
   "status": "proved",
   "theorems": [
    "Verif.Props.C155_derivative"
   ],
   "note": ""
  },
  {
   "property": "C156",
   "status": "proved",
   "theorems": [
    "Verif.Props.C156_direction"
   ],
   "note": ""
  },
  {
   "property": "C157",
   "status": "proved",
   "theorems": [
    "Verif.Props.C157_between_samples"
   ],
   "note": ""
  },
  {
   "property": "C158",
   "status": "proved",
   "theorems": [
    "Verif.Props.C158_coherent",
    "Verif.Props.C158_succeeds",
    "Verif.Props.C158_time"
   ],
   "note": ""
  },
  {
   "property": "C159",
   "status": "proved",
   "theorems": [
    "Verif.Props.C159_misfit",
    "Verif.Props.C159_converges",
    "Verif.Props.C159_limit"
   ],
   "note": "exact arithmetic; next_fast_len: parameter"
  },
  {
   "property": "C160",
   "status": "partial",
   "theorems": [
    "Verif.Props.C160_wrap",
    "Verif.Props.C160_rebind",
    "Verif.Props.C160_values",
    "Verif.Props.C160_others_partial",
    "Verif.Props.C160_counterexample"
   ],
   "note": "False as stated: RFStream(stream) and slice2 share arrays with the original, and moveout of the new stream changes the samples of the original (C160_counterexample). Proved: with arrays of floats and without shared cells the result is that of the value model (C160_values), and every trace which shares no cell with the stream keeps its samples (C160_others_partial)."
  },
  {
   "property": "C161",
   "status": "partial",
   "theorems": [
    "Verif.Props.C161_step_partial",
    "Verif.Props.C161_cast",
    "Verif.Props.C161_counterexample"
   ],
   "note": "False as stated: in integer arrays the assigned samples are cut towards zero and a conversion can vanish (C161_counterexample). Proved: the assigned samples are the converted corrected samples (C161_step_partial), exact for floats and with error below 1 for integers (C161_cast)."
  },
  {
   "property": "C162",
   "status": "partial",
   "theorems": [
    "Verif.Props.C162_index_partial",
    "Verif.Props.C162_dyadic",
    "Verif.Props.C162_samples_partial",
    "Verif.Props.C162_counterexample"
   ],
   "note": "False as stated: onset at 0.29 s with 100 Hz gives index 28 and changes the sample before the onset (C162_counterexample). Proved: the index differs by at most one, is exact away from integers and for dyadic time differences, samples at least two before the onset stay untouched."
  },
  {
   "property": "C163",
   "status": "proved",
   "theorems": [
    "Verif.Props.C163_live_record",
    "Verif.Props.C163_returns_iff",
    "Verif.Props.C163_same",
    "Verif.Props.C163_others",
    "Verif.Props.C163_zero_source"
   ],
   "note": "Waterlevel, iterative and multitaper methods; the time domain method hands NaN to the Toeplitz solver, whose behaviour is not known."
  },
  {
   "property": "C164",
   "status": "partial",
   "theorems": [
    "Verif.Props.C164_other_ids_partial",
    "Verif.Props.C164_poisoned",
    "Verif.Props.C164_counterexample"
   ],
   "note": "False as stated: every sample of the stack of an id is undetermined if the samples of one of its traces are (C164_poisoned, C164_counterexample). Proved: stacks of ids without such a trace do not change."
  },
  {
   "property": "C165",
   "status": "proved",
   "theorems": [
    "Verif.Props.C165_stack",
    "Verif.Props.C165_pipeline"
   ],
   "note": ""
  },
  {
   "property": "C166",
   "status": "partial",
   "theorems": [
    "Verif.Props.C166_meridian",
    "Verif.Props.C166_counterexample",
    "Verif.Props.C166_equator_partial",
    "Verif.Props.C166_overlap",
    "Verif.Props.C166_wrong_box"
   ],
   "note": "False as stated: _get_box uses the azimuth of the profile at its start for all four corners also where the meridians have turned (C166_counterexample: from 45 degrees north with the default width of 2000 km a point on the line is in no box; C166_meridian in general). Proved for profiles along the equator, with the box found being that of the bin or one before it (C166_equator_partial); the boxes overlap (C166_overlap, C166_wrong_box)."
  },
  {
   "property": "C167",
   "status": "proved",
   "theorems": [
    "Verif.Props.C167_bin",
    "Verif.Props.C167_pipeline"
   ],
   "note": ""
  },
  {
   "property": "C168",
   "status": "partial",
   "theorems": [
    "Verif.Props.C168_one_component",
    "Verif.Props.C168_stack",
    "Verif.Props.C168_two_components_partial",
    "Verif.Props.C168_counterexample"
   ],
   "note": "false for two components: the constants are the stacks divided by the scalars (3 and 0.3 by default), shown by a counterexample; true for one component and, up to the scalars, for two"
  },
  {
   "property": "C169",
   "status": "proved",
   "theorems": [
    "Verif.Props.C169_components",
    "Verif.Props.C169_scalars"
   ],
   "note": ""
  },
  {
   "property": "C170",
   "status": "partial",
   "theorems": [
    "Verif.Props.C170_never",
    "Verif.Props.C170_error",
    "Verif.Props.C170_commutes_partial",
    "Verif.Props.C170_counterexample"
   ],
   "note": "false: stack drops the slowness, so moveout of a stack always fails; proved if the common slowness is assigned to the stacked traces"
  },
  {
   "property": "C171",
   "status": "proved",
   "theorems": [
    "Verif.Props.C171_weighted",
    "Verif.Props.C171_same"
   ],
   "note": ""
  },
  {
   "property": "C172",
   "status": "partial",
   "theorems": [
    "Verif.Props.C172_time_partial",
    "Verif.Props.C172_waterlevel_partial",
    "Verif.Props.C172_multitaper_partial",
    "Verif.Props.C172_counterexample"
   ],
   "note": "false for the iterative method (counterexample); proved for time, waterlevel and multitaper"
  },
  {
   "property": "C173",
   "status": "partial",
   "theorems": [
    "Verif.Props.C173_first",
    "Verif.Props.C173_commutes_partial",
    "Verif.Props.C173_counterexample"
   ],
   "note": "false for traces of different slownesses (counterexample); proved for bins with one slowness; C173_first says what the code does"
  },
  {
   "property": "C174",
   "status": "proved",
   "theorems": [
    "Verif.Props.C174_pulse",
    "Verif.Props.C174_train"
   ],
   "note": "for source windows given by numbers, responses on all components"
  },
  {
   "property": "C175",
   "status": "proved",
   "theorems": [
    "Verif.Props.C175_tables",
    "Verif.Props.C175_moveout",
    "Verif.Props.C175_conversion"
   ],
   "note": "the code drops the last valid layer above the cut as well; the theorems state this"
  },
  {
   "property": "C176",
   "status": "proved",
   "theorems": [
    "Verif.Props.C176_loads"
   ],
   "note": ""
  },
  {
   "property": "C177",
   "status": "proved",
   "theorems": [
    "Verif.Props.C177_trace",
    "Verif.Props.C177_stream"
   ],
   "note": ""
  },
  {
   "property": "C178",
   "status": "partial",
   "theorems": [
    "Verif.Props.C178_error_partial",
    "Verif.Props.C178_counterexample"
   ],
   "note": "false as stated: the result belongs to one layer below (C37), e.g. the piercing point at depth 0 is the one of 2 km; proved are the sign and a bound of the error"
  },
  {
   "property": "C179",
   "status": "partial",
   "theorems": [
    "Verif.Props.C179_kernel",
    "Verif.Props.C179_waterlevel",
    "Verif.Props.C179_time_partial",
    "Verif.Props.C179_counterexample"
   ],
   "note": "False for the time domain method: the header is not moved with the cut, which is centred (counterexample); proved for the water level method and, with the exact shift, for the time domain method."
  },
  {
   "property": "C180",
   "status": "proved",
   "theorems": [
    "Verif.Props.C180_number",
    "Verif.Props.C180_json",
    "Verif.Props.C180_trailing",
    "Verif.Props.C180_headers",
    "Verif.Props.C180_time",
    "Verif.Props.C180_jsonOk",
    "Verif.Props.C180_q",
    "Verif.Props.C180_printable",
    "Verif.Props.C180_last"
   ],
   "note": "Texts of numbers are a parameter; the hypothesis that they read back is proved for exact decimal texts."
  },
  {
   "property": "C181",
   "status": "proved",
   "theorems": [
    "Verif.Props.C181_no_object",
    "Verif.Props.C181_loads",
    "Verif.Props.C181_run",
    "Verif.Props.C181_prepare",
    "Verif.Props.C181_tutorial",
    "Verif.Props.C181_tutorial_default",
    "Verif.Props.C181_last"
   ],
   "note": "The decoder of the configuration is modelled with numbers as exact decimals."
  },
  {
   "property": "C182",
   "status": "partial",
   "theorems": [
    "Verif.Props.C182_read_partial",
    "Verif.Props.C182_stops_partial",
    "Verif.Props.C182_comma_partial",
    "Verif.Props.C182_counterexample",
    "Verif.Props.C182_water"
   ],
   "note": "False: e.g. the line of deconvolve (counterexample); which lines can be switched on is determined exactly."
  },
  {
   "property": "C183",
   "status": "partial",
   "theorems": [
    "Verif.Props.C183_accepted",
    "Verif.Props.C183_refused",
    "Verif.Props.C183_rf_accepted",
    "Verif.Props.C183_rf_partial",
    "Verif.Props.C183_silent_partial",
    "Verif.Props.C183_options",
    "Verif.Props.C183_all",
    "Verif.Props.C183_counterexample"
   ],
   "note": "False without complete records or with deconvolve=None (counterexample); proved for deconvolve and for rf with at least one complete record."
  },
  {
   "property": "C184",
   "status": "partial",
   "theorems": [
    "Verif.Props.C184_samples_partial",
    "Verif.Props.C184_commutes_partial",
    "Verif.Props.C184_ps_partial",
    "Verif.Props.C184_counterexample"
   ],
   "note": "False as stated: what is moved to earlier times into the window comes from outside of it, so that cutting first gives zeros (C184_counterexample). Proved: exact comparison of both orders (C184_samples_partial); equality if nothing is cut off at the end or the reference delays are not earlier (C184_commutes_partial), for Ps whenever the slownesses do not exceed the reference slowness (C184_ps_partial)."
  },
  {
   "property": "C185",
   "status": "partial",
   "theorems": [
    "Verif.Props.C185_commutes_partial",
    "Verif.Props.C185_empty_partial",
    "Verif.Props.C185_counterexample"
   ],
   "note": "False as stated: stack adds sample by sample, whatever the onsets (C185_counterexample). Proved if the onset is at the same sample of all traces (C185_commutes_partial); an empty window makes stack raise IndexError (C185_empty_partial)."
  },
  {
   "property": "C186",
   "status": "partial",
   "theorems": [
    "Verif.Props.C186_commutes_partial",
    "Verif.Props.C186_counterexample"
   ],
   "note": "False as stated: profile adds sample by sample, whatever the onsets (C186_counterexample). Proved if the onset is at the same sample of all traces (C186_commutes_partial)."
  },
  {
   "property": "C187",
   "status": "partial",
   "theorems": [
    "Verif.Props.C187_one_component_partial",
    "Verif.Props.C187_two_components_partial",
    "Verif.Props.C187_counterexample"
   ],
   "note": "False in general (C187_counterexample): samples with the same index are combined whatever the onsets are and the header is that of the first trace. Proved for streams with the onset at the same sample of all traces, one and two components, both methods, identical headers (C187_one_component_partial, C187_two_components_partial)."
  },
  {
   "property": "C188",
   "status": "partial",
   "theorems": [
    "Verif.Props.C188_file_headers_partial",
    "Verif.Props.C188_again_partial",
    "Verif.Props.C188_counterexample",
    "Verif.Props.C188_counterexample_null",
    "Verif.Props.C188_undefined"
   ],
   "note": "False in general (C188_counterexample): an onset set by hand is replaced by the field a of the SAC header, and with an undefined field (-12345) the entry set before is a TypeError (C188_counterexample_null). Proved: exactly the entries defined by the format specific header are replaced, all others are kept, success does not depend on the entries (C188_file_headers_partial), and doing it again changes nothing (C188_again_partial), if the time fields are absent or defined."
  },
  {
   "property": "C189",
   "status": "partial",
   "theorems": [
    "Verif.Props.C189_sac_partial",
    "Verif.Props.C189_sac_station_partial",
    "Verif.Props.C189_q_partial",
    "Verif.Props.C189_h5_partial",
    "Verif.Props.C189_profile_partial",
    "Verif.Props.C189_counterexample",
    "Verif.Props.C189_counterexample_other"
   ],
   "note": "false: obspy's read expands patterns, so that files in a directory rf[1] are not found (the exceptions are swallowed) or those of rf1 are read; proved for all names without an opening bracket, also with * and ?"
  },
  {
   "property": "C190",
   "status": "partial",
   "theorems": [
    "Verif.Props.C190_local",
    "Verif.Props.C190_later",
    "Verif.Props.C190_gain",
    "Verif.Props.C190_perm",
    "Verif.Props.C190_noise",
    "Verif.Props.C190_own",
    "Verif.Props.C190_early",
    "Verif.Props.C190_works_partial",
    "Verif.Props.C190_order",
    "Verif.Props.C190_gain_kernels",
    "Verif.Props.C190_counterexample"
   ],
   "note": "the windows are as stated (C190_noise, C190_own); it does not always work: an onset less than 5 s after the start of the record raises ValueError (C190_early, C190_counterexample); C190_works_partial gives lengths for which only NaN can occur. ObsPy's trim is a parameter"
  },
  {
   "property": "C191",
   "status": "partial",
   "theorems": [
    "Verif.Props.C191_dyadic_partial",
    "Verif.Props.C191_default_partial",
    "Verif.Props.C191_near_partial",
    "Verif.Props.C191_taper",
    "Verif.Props.C191_counterexample"
   ],
   "note": "false: with overlap 0.9 and tapers of 100 samples the second window starts at sample 9 instead of 10 (C191_counterexample); exact for dyadic overlaps such as the default 0.75, within one sample for overlaps up to 1-2^-10"
  },
  {
   "property": "C192",
   "status": "partial",
   "theorems": [
    "Verif.Props.C192_position",
    "Verif.Props.C192_own_partial",
    "Verif.Props.C192_enough",
    "Verif.Props.C192_counterexample"
   ],
   "note": "false: noise and responses are put together by position in the two streams (C192_position, C192_counterexample); holds if both streams have the components in the same order (C192_own_partial)"
  },
  {
   "property": "C193",
   "status": "proved",
   "theorems": [
    "Verif.Props.C193_rf",
    "Verif.Props.C193_moveout",
    "Verif.Props.C193_stack",
    "Verif.Props.C193_saved",
    "Verif.Props.C193_ppoints",
    "Verif.Props.C193_profile",
    "Verif.Props.C193_harmonics",
    "Verif.Props.C193_files"
   ],
   "note": ""
  },
  {
   "property": "C194",
   "status": "partial",
   "theorems": [
    "Verif.Props.C194_profile_partial",
    "Verif.Props.C194_hist_partial",
    "Verif.Props.C194_rf",
    "Verif.Props.C194_counterexample"
   ],
   "note": "False for plot_profile with top='hist': the number of traces (num) is not among the headers written to SAC and SH files, so that the histogram of a profile read back raises AttributeError. Proved for plot_rf, for profiles without histogram, and for the histogram if num agrees."
  },
  {
   "property": "C195",
   "status": "proved",
   "theorems": [
    "Verif.Props.C195_loop",
    "Verif.Props.C195_chain",
    "Verif.Props.C195_files",
    "Verif.Props.C195_empty",
    "Verif.Props.C195_steps",
    "Verif.Props.C195_leftover",
    "Verif.Props.C195_twice",
    "Verif.Props.C195_records"
   ],
   "note": "for formats with one file per stream (Q). The commands must not leave an empty stream (C195_records; true without trimming, C196_untrimmed); counterexamples show that files left over from earlier calls and two instruments at one location have to be excluded"
  },
  {
   "property": "C196",
   "status": "proved",
   "theorems": [
    "Verif.Props.C196_rf",
    "Verif.Props.C196_untrimmed",
    "Verif.Props.C196_moveout",
    "Verif.Props.C196_pair",
    "Verif.Props.C196_commands"
   ],
   "note": "custom deconvolution functions (method func) may change anything and are excluded"
  },
  {
   "property": "C197",
   "status": "proved",
   "theorems": [
    "Verif.Props.C197_index",
    "Verif.Props.C197_onset",
    "Verif.Props.C197_shift"
   ],
   "note": "records up to 2^40 samples, 13 days; the exponent range of doubles is not modelled"
  },
  {
   "property": "C198",
   "status": "partial",
   "theorems": [
    "Verif.Props.C198_stops",
    "Verif.Props.C198_read_partial",
    "Verif.Props.C198_exact_partial",
    "Verif.Props.C198_q",
    "Verif.Props.C198_counterexample"
   ],
   "note": "false for SAC files with older channels (counterexample); exact description of what is read"
  },
  {
   "property": "C199",
   "status": "proved",
   "theorems": [
    "Verif.Props.C199_time",
    "Verif.Props.C199_sample",
    "Verif.Props.C199_deconvolve",
    "Verif.Props.C199_exact"
   ],
   "note": "the start time and the reference time in the file are those of the record (ObsPy); exponent range of single precision not modelled"
  },
  {
   "property": "C200",
   "status": "proved",
   "theorems": [
    "Verif.Props.C200_moveout",
    "Verif.Props.C200_stack",
    "Verif.Props.C200_profile",
    "Verif.Props.C200_sac"
   ],
   "note": "NaN delay times: the external result is assumed to be linear and bounded"
  },
  {
   "property": "C201",
   "status": "proved",
   "theorems": [
    "Verif.Props.C201_energy",
    "Verif.Props.C201_noise",
    "Verif.Props.C201_sample"
   ],
   "note": "all waterlevel > 0; energy and sample bounds"
  },
  {
   "property": "C202",
   "status": "proved",
   "theorems": [
    "Verif.Props.C202_energy",
    "Verif.Props.C202_noise",
    "Verif.Props.C202_sample"
   ],
   "note": "all spiking > 0; energy and sample bounds"
  },
  {
   "property": "C203",
   "status": "proved",
   "theorems": [
    "Verif.Props.C203_energy",
    "Verif.Props.C203_noise",
    "Verif.Props.C203_sample"
   ],
   "note": "balanced directions, one component, both methods"
  },
  {
   "property": "C204",
   "status": "proved",
   "theorems": [
    "Verif.Props.C204_stack",
    "Verif.Props.C204_amplitude",
    "Verif.Props.C204_profile"
   ],
   "note": "stack64 and profile64 against the exact means for every order of additions"
  },
  {
   "property": "C205",
   "status": "partial",
   "theorems": [
    "Verif.Props.C205_one_phase_partial",
    "Verif.Props.C205_several",
    "Verif.Props.C205_rf",
    "Verif.Props.C205_counterexample"
   ],
   "note": "False: two different phases with the same last letter give no method (C205_several, C205_counterexample). Proved for one common phase; C205_rf gives the phases after rf exactly."
  },
  {
   "property": "C206",
   "status": "proved",
   "theorems": [
    "Verif.Props.C206_response",
    "Verif.Props.C206_tshift",
    "Verif.Props.C206_common"
   ],
   "note": "delayed responses, larger tshift, common delays; exact arithmetic"
  },
  {
   "property": "C207",
   "status": "partial",
   "theorems": [
    "Verif.Props.C207_same_spikes_partial",
    "Verif.Props.C207_counterexample"
   ],
   "note": "false: counterexample; bound proved for equal spike positions"
  },
  {
   "property": "C208",
   "status": "proved",
   "theorems": [
    "Verif.Props.C208_number",
    "Verif.Props.C208_line",
    "Verif.Props.C208_bad_field",
    "Verif.Props.C208_table",
    "Verif.Props.C208_model",
    "Verif.Props.C208_ragged",
    "Verif.Props.C208_single"
   ],
   "note": "texts of numbers and layouts; exact values"
  },
  {
   "property": "C209",
   "status": "partial",
   "theorems": [
    "Verif.Props.C209_identifies_partial",
    "Verif.Props.C209_counterexample",
    "Verif.Props.C209_moveout",
    "Verif.Props.C209_rf",
    "Verif.Props.C209_defaults",
    "Verif.Props.C209_stack"
   ],
   "note": "false for texts which contain the separator of the entries (counterexample); proved for all others"
  },
  {
   "property": "C210",
   "status": "proved",
   "theorems": [
    "Verif.Props.C210_water",
    "Verif.Props.C210_levels",
    "Verif.Props.C210_time"
   ],
   "note": "Exact arithmetic; Gauss filter and time shift by fractions of a sample only in the statement on water levels."
  },
  {
   "property": "C211",
   "status": "partial",
   "theorems": [
    "Verif.Props.C211_time_partial",
    "Verif.Props.C211_water_partial",
    "Verif.Props.C211_src_partial",
    "Verif.Props.C211_water_after",
    "Verif.Props.C211_iterative",
    "Verif.Props.C211_counterexample",
    "Verif.Props.C211_counterexample_src",
    "Verif.Props.C211_counterexample_time"
   ],
   "note": "Time domain: one sample off for some windows with an even number of samples (C11). Water level: false if the source is cut off by the leading zeros (C211_counterexample) and for normalize='src' if fewer samples are returned than the transform has (C211_counterexample_src); proved otherwise. Iterative: zeros after the source only; leading zeros change which lags are admitted and are left open."
  },
  {
   "property": "C212",
   "status": "proved",
   "theorems": [
    "Verif.Props.C212_formats",
    "Verif.Props.C212_q",
    "Verif.Props.C212_sac",
    "Verif.Props.C212_stream",
    "Verif.Props.C212_stream_sac",
    "Verif.Props.C212_h5",
    "Verif.Props.C212_traces",
    "Verif.Props.C212_stops"
   ],
   "note": "Codes without dots for Q (C59); for SAC under the condition SacAgain on the header made by ObsPy; the writer does not fail (second call in Q and H5 format, and trace by trace). Trace by trace: not for H5, whose headers are not changed at all (C212_h5)."
  },
  {
   "property": "C213",
   "status": "proved",
   "theorems": [
    "Verif.Props.C213_interp",
    "Verif.Props.C213_knots",
    "Verif.Props.C213_times",
    "Verif.Props.C213_moveout",
    "Verif.Props.C213_trace",
    "Verif.Props.C213_sampleTimes"
   ],
   "note": "Branch of all phases but S multiples (C213_trace); for S multiples the two interpolations are covered by C213_moveout. The reference is exact interpolation at the sample times as rounded."
  },
  {
   "property": "C214",
   "status": "partial",
   "theorems": [
    "Verif.Props.C214_times_partial",
    "Verif.Props.C214_samples_partial",
    "Verif.Props.C214_inside_partial",
    "Verif.Props.C214_trace_partial",
    "Verif.Props.C214_counterexample"
   ],
   "note": "False in general (counterexample with a mirrored table: the last sample becomes zero); proved for each sample whose time is 0, a time of the table or at most twice the time before it in the table: for whole traces (C214_trace_partial, all phases but S multiples) and for the two interpolations (C214_samples_partial, C214_inside_partial). Missing for other times, e.g. between the last mirrored time and the first delay time; there the bound of C213 holds."
  },
  {
   "property": "C215",
   "status": "proved",
   "theorems": [
    "Verif.Props.C215_delays",
    "Verif.Props.C215_sp",
    "Verif.Props.C215_tables",
    "Verif.Props.C215_reached"
   ],
   "note": "Proved with all operations rounded to 53 bits; of v ** (-2) and np.sqrt only monotony, sign and 53 bits are assumed; exponents are not bounded."
  },
  {
   "property": "C216",
   "status": "partial",
   "theorems": [
    "Verif.Props.C216_max_partial",
    "Verif.Props.C216_counterexample",
    "Verif.Props.C216_samples",
    "Verif.Props.C216_again",
    "Verif.Props.C216_units"
   ],
   "note": "False: 1/M times M is 1 - 2^-53 for some M, e.g. 49 (counterexample); proved that these are the only two values, and order, accuracy and independence of units in full."
  },
  {
   "property": "C217",
   "status": "partial",
   "theorems": [
    "Verif.Props.C217_many",
    "Verif.Props.C217_one_partial",
    "Verif.Props.C217_counterexample"
   ],
   "note": "Proved for at least two S legs; false for phases with one S leg such as Sppp at large slownesses (counterexample), for which the exact condition is proved."
  },
  {
   "property": "C218",
   "status": "proved",
   "theorems": [
    "Verif.Props.C218_delays"
   ],
   "note": "Double precision delay times within an explicit bound of the exact sums, for rays away from critical."
  },
  {
   "property": "C219",
   "status": "proved",
   "theorems": [
    "Verif.Props.C219_tables"
   ],
   "note": "Both tables within the bound of C218 of the exact ones, for rays away from critical."
  },
  {
   "property": "C220",
   "status": "proved",
   "theorems": [
    "Verif.Props.C220_distance"
   ],
   "note": "Within an explicit bound of the exact value of the same formula, for rays away from critical; that the formula itself is off by one layer is C37."
  },
  {
   "property": "C221",
   "status": "proved",
   "theorems": [
    "Verif.Props.C221_mirror",
    "Verif.Props.C221_exact",
    "Verif.Props.C221_sample",
    "Verif.Props.C221_stack",
    "Verif.Props.C221_moved"
   ],
   "note": "Times in nanoseconds, rounding to microseconds by ObsPy in the model."
  },
  {
   "property": "C222",
   "status": "proved",
   "theorems": [
    "Verif.Props.C222_interp",
    "Verif.Props.C222_moveout",
    "Verif.Props.C222_double",
    "Verif.Props.C222_multiple"
   ],
   "note": "Tables of delay times as arguments; C219 bounds their error in double precision, C224 their change with the velocity model. C222_moveout, C222_multiple (S multiples)."
  },
  {
   "property": "C223",
   "status": "proved",
   "theorems": [
    "Verif.Props.C223_moveout",
    "Verif.Props.C223_tables",
    "Verif.Props.C223_multiple"
   ],
   "note": "The index of the onset is the exact one, see C162."
  },
  {
   "property": "C224",
   "status": "proved",
   "theorems": [
    "Verif.Props.C224_multiple",
    "Verif.Props.C224_delays",
    "Verif.Props.C224_tables",
    "Verif.Props.C224_moveout"
   ],
   "note": "Bounds for delay times, tables and corrected samples, S multiples included (C224_multiple)."
  },
  {
   "property": "C225",
   "status": "proved",
   "theorems": [
    "Verif.Props.C225_layers",
    "Verif.Props.C225_distance"
   ],
   "note": "Bound for the distance returned by ppoint_distance (as the code calculates it, see C37)."
  },
  {
   "property": "C226",
   "status": "proved",
   "theorems": [
    "Verif.Props.C226_delays",
    "Verif.Props.C226_delay_times",
    "Verif.Props.C226_tables",
    "Verif.Props.C226_moveout",
    "Verif.Props.C226_multiple"
   ],
   "note": "Exact arithmetic; the thickness may also be zero or negative. Slowness up to the critical one included. C226_delays, C226_delay_times, C226_tables (two tables of stretch_delay_times, even number of letters, no reference times cached before), C226_moveout, C226_multiple (S multiples)."
  }
 ]
}