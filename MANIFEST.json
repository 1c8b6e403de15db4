{
 "claims": [
  {
   "property": "C01",
   "status": "proved",
   "theorems": [
    "Verif.Props.C01_distribute_array_even_split"
   ],
   "note": "All array lengths and communicator sizes."
  },
  {
   "property": "C02",
   "status": "proved",
   "theorems": [
    "Verif.Props.C02_scatter_list_eq_distribute",
    "Verif.Props.C02_scatter_list_even_split"
   ],
   "note": "Equality with distribute_array, hence the same even split."
  },
  {
   "property": "C03",
   "status": "proved",
   "theorems": [
    "Verif.Props.C03_every_pair_scanned_once",
    "Verif.Props.C03_violation_no_scatter"
   ],
   "note": "The statement is about scatter=True. With scatter=False and more than one rank only the first nmax pairs of the list are scanned (C03_violation_no_scatter)."
  },
  {
   "property": "C04",
   "status": "proved",
   "theorems": [
    "Verif.Props.C04_parallel_pointing_eq_serial"
   ],
   "note": "Boresight function is an arbitrary per-sample function."
  },
  {
   "property": "C05",
   "status": "proved",
   "theorems": [
    "Verif.Props.C05_reduced_maps_rank_independent"
   ],
   "note": "Exact arithmetic (commutative monoid) instead of floating point sums."
  },
  {
   "property": "C06",
   "status": "partial",
   "theorems": [
    "Verif.Props.C06_params_consistent",
    "Verif.Props.C06_params_rejected",
    "Verif.Props.C06_params_nonneg_partial",
    "Verif.Props.C06_negative_violation"
   ],
   "note": "All parameter combinations are covered; false of the code for negative durations and sample numbers, which are accepted (C06_negative_violation)."
  },
  {
   "property": "C07",
   "status": "proved",
   "theorems": [
    "Verif.Props.C07_partition_mission_tiles",
    "Verif.Props.C07_partition_mission_edge_cases"
   ],
   "note": "Edge cases (empty mission, fractional or negative chunk size) have their own theorem."
  },
  {
   "property": "C08",
   "status": "proved",
   "theorems": [
    "Verif.Props.C08_subchunks_tile_and_align",
    "Verif.Props.C08_zero_period_raises"
   ],
   "note": "All periods, all contiguous chunk sequences."
  },
  {
   "property": "C09",
   "status": "partial",
   "theorems": [
    "Verif.Props.C09_boresight_angle_partial",
    "Verif.Props.C09_violation"
   ],
   "note": "False of the code when a chunk lies inside one rotation period and does not start on a period boundary (C09_violation: the whole-chunk branch lacks the norot flag). Proved for all other chunkings."
  },
  {
   "property": "C10",
   "status": "proved",
   "theorems": [
    "Verif.Props.C10_el_steps_chunk_independent",
    "Verif.Props.C10_zero_period_raises"
   ],
   "note": "Any chunking, empty chunks included."
  },
  {
   "property": "C11",
   "status": "proved",
   "theorems": [
    "Verif.Props.C11_reset_instr_rot",
    "Verif.Props.C11_reset_hwp_mod",
    "Verif.Props.C11_reset_el_steps"
   ],
   "note": "Rotation, HWP and elevation steps."
  },
  {
   "property": "C12",
   "status": "proved",
   "theorems": [
    "Verif.Props.C12_stepped_hwp_chunk_independent",
    "Verif.Props.C12_stepped_hwp_exact",
    "Verif.Props.C12_default_angles"
   ],
   "note": "Modulo 360 in general, exactly when the listed angles are in [0, 360)."
  },
  {
   "property": "C13",
   "status": "partial",
   "theorems": [
    "Verif.Props.C13_continuous_hwp_lag",
    "Verif.Props.C13_continuous_hwp_partial",
    "Verif.Props.C13_violation"
   ],
   "note": "False of the code: the plate lags one sample per chunk boundary (C13_continuous_hwp_lag gives the exact angle, C13_violation the failure). Proved for single-chunk missions."
  },
  {
   "property": "C14",
   "status": "proved",
   "theorems": [
    "Verif.Props.C14_angle_gen_cycles",
    "Verif.Props.C14_angle_gen_empty_raises"
   ],
   "note": ""
  },
  {
   "property": "C15",
   "status": "proved",
   "theorems": [
    "Verif.Data.C15_ctime",
    "Verif.Data.C15_schedule_ctime"
   ],
   "note": "Generic, L2 and satellite times share one formula; schedule times are relative to ctime_starts."
  },
  {
   "property": "C16",
   "status": "proved",
   "theorems": [
    "Verif.Data.C16_history_exists",
    "Verif.Data.C16_stored",
    "Verif.Data.C16_hwp_hypotheses",
    "Verif.Data.C16_sample"
   ],
   "note": "Single rank; pointing and scan results abstract, HWP and rotation state explicit; any chunking, any previous content. Horizontal-frame arrays not modelled."
  },
  {
   "property": "C17",
   "status": "partial",
   "theorems": [
    "Verif.Data.C17_distinct_partial",
    "Verif.Data.C17_violation_collision",
    "Verif.FocalPlane.C17_unique_idx_partial",
    "Verif.FocalPlane.C17_violation_input",
    "Verif.FocalPlane.C17_violation_failed_add"
   ],
   "note": "C17_stored (Data): distinct indices keep distinct data. C17_unique_idx_partial (FocalPlane): the indices of a focal plane built by successful create/add/remove/load calls never collide. False for input_focal_plane and after a failed add (violations proved)."
  },
  {
   "property": "C18",
   "status": "proved",
   "theorems": [
    "Verif.Props.C18_trunc_alm",
    "Verif.Props.C18_trunc_alm_seq",
    "Verif.Props.C18_trunc_too_large",
    "Verif.Props.C18_trunc_bad_size",
    "Verif.Props.C18_trunc_twice"
   ],
   "note": "Single arrays and sequences, any mmax."
  },
  {
   "property": "C19",
   "status": "proved",
   "theorems": [
    "Verif.Props.C19_layout_bijection",
    "Verif.Props.C19_every_array"
   ],
   "note": "healpy's index functions are modelled from their documented formulas."
  },
  {
   "property": "C20",
   "status": "proved",
   "theorems": [
    "Verif.Props.C20_unpol2pol",
    "Verif.Props.C20_monopole_only_raises"
   ],
   "note": "Every band limit >= 1; band limit 0 raises."
  },
  {
   "property": "C21",
   "status": "proved",
   "theorems": [
    "Verif.Props.C21_shift_modes",
    "Verif.Props.C21_shift_zero",
    "Verif.Props.C21_size_mismatch",
    "Verif.Props.C21_shift_too_large",
    "Verif.Props.C21_shift_even",
    "Verif.Props.C21_shift_back",
    "Verif.Props.C21_shift_eb",
    "Verif.Props.C21_shift_eb_real"
   ],
   "note": "eb=False in any star ring, eb=True over the complex numbers; all shifts."
  },
  {
   "property": "C22",
   "status": "proved",
   "theorems": [
    "Verif.Props.C22_eb_roundtrip",
    "Verif.Props.C22_spin_roundtrip",
    "Verif.Props.C22_non_integer_spin"
   ],
   "note": "Exact complex arithmetic."
  },
  {
   "property": "C23",
   "status": "proved",
   "theorems": [
    "Verif.Props.C23_representation",
    "Verif.Props.C23_acts_on_spin_vector",
    "Verif.Props.C23_reality"
   ],
   "note": "All complex Mueller matrices; reality clause for real ones."
  },
  {
   "property": "C24",
   "status": "partial",
   "theorems": [
    "Verif.Props.C24_basis_change_partial",
    "Verif.Props.C24_iquv2ippv_violation"
   ],
   "note": "Mutually inverse and multiplicative; but the two functions are swapped: iquv2ippv does not produce the matrix in the (I,P,P*,V) basis (C24_iquv2ippv_violation), ippv2iquv does."
  },
  {
   "property": "C25",
   "status": "proved",
   "theorems": [
    "Verif.Props.C25_ideal_hwp_copolar",
    "Verif.Props.C25_ideal_hwp_symmetric",
    "Verif.Props.C25_small_band_limit_rejected",
    "Verif.Props.C25_unknown_mode"
   ],
   "note": "Symmetric beams at full strength, plus the exact result for every co-polar beam; band limits below 4 are rejected."
  },
  {
   "property": "C26",
   "status": "proved",
   "theorems": [
    "Verif.Props.C26_hamilton_product",
    "Verif.Props.C26_assoc",
    "Verif.Props.C26_unit",
    "Verif.Props.C26_norm_mul",
    "Verif.Props.C26_conj",
    "Verif.Props.C26_quat_norm",
    "Verif.Props.C26_norm_of_product",
    "Verif.Props.C26_inverse",
    "Verif.Props.C26_inverse_of_zero",
    "Verif.Props.C26_conj_by",
    "Verif.Props.C26_conj_by_comp",
    "Verif.Props.C26_rotation_z"
   ],
   "note": "Real quaternion arithmetic against Mathlib's Hamilton quaternions; float rounding not modelled."
  },
  {
   "property": "C27",
   "status": "proved",
   "theorems": [
    "Verif.Props.C27_cross_talk",
    "Verif.Props.C27_cross_talk_swap",
    "Verif.Props.C27_cross_talk_undo",
    "Verif.Props.C27_cross_talk_size_mismatch"
   ],
   "note": "Any commutative ring of sample values."
  },
  {
   "property": "C28",
   "status": "partial",
   "theorems": [
    "Verif.Props.C28_tukey_window_partial",
    "Verif.Props.C28_tukey_window_violation"
   ],
   "note": "All n >= 2 and n = 0; n = 1 raises (C28_tukey_window_violation)."
  },
  {
   "property": "C29",
   "status": "partial",
   "theorems": [
    "Verif.Props.C29_filter_ft_hwp_partial",
    "Verif.Props.C29_single_mode_violation",
    "Verif.Props.C29_negative_left_violation"
   ],
   "note": "All bands that do not start below index 0 and hold more than one mode. Otherwise false of the code: C29_negative_left_violation, C29_single_mode_violation."
  },
  {
   "property": "C30",
   "status": "proved",
   "theorems": [
    "Verif.Props.C30_sawtooth_profile",
    "Verif.Props.C30_triangle_profile"
   ],
   "note": "Sawtooth over any ordered field with floor, triangle over the reals."
  },
  {
   "property": "C31",
   "status": "partial",
   "theorems": [
    "Verif.Props.C31_radec2colatlong_partial",
    "Verif.Props.C31_south_pole_violation",
    "Verif.Props.C31_elementwise",
    "Verif.Props.C31_pixels_partial",
    "Verif.Props.C31_violation_twice"
   ],
   "note": "Right for dec > -90; at the south pole the code wraps the colatitude (violation proved). Pixels of radec2ind_hp likewise (C31_pixels_partial); its arguments are overwritten, so that a second call with the same arrays is wrong (C31_violation_twice)."
  },
  {
   "property": "C32",
   "status": "partial",
   "theorems": [
    "Verif.Props.C32_wraparound_2pi_partial",
    "Verif.Props.C32_negative_violation",
    "Verif.Props.C32_wraparound_npi_partial",
    "Verif.Props.C32_npi_multiple_violation",
    "Verif.Props.C32_array_violation"
   ],
   "note": "Right for non-negative angles; violations for negative angles, multiples and arrays proved."
  },
  {
   "property": "C33",
   "status": "partial",
   "theorems": [
    "Verif.Props.C33_ctime2DJD_partial",
    "Verif.Props.C33_double_offset_violation"
   ],
   "note": "Day count is right up to a constant: the Dublin offset is applied twice (violation proved)."
  },
  {
   "property": "C34",
   "status": "partial",
   "theorems": [
    "Verif.Props.C34_unit_vector",
    "Verif.Props.C34_opening_angles",
    "Verif.Props.C34_spin_rate",
    "Verif.Props.C34_radec_partial",
    "Verif.Props.C34_pole_violation",
    "Verif.Props.C34_array_violation"
   ],
   "note": "Unit vector, opening angles and spin rate for all times; RA/Dec right away from the pole, violation at the pole and for arrays proved."
  },
  {
   "property": "C35",
   "status": "proved",
   "theorems": [
    "Verif.Props.C35_stokes",
    "Verif.Props.C35_multiplicative",
    "Verif.Props.C35_identity",
    "Verif.Props.C35_scaling",
    "Verif.Props.C35_entries_real"
   ],
   "note": "Against an independent definition of the Stokes parameters of a field."
  },
  {
   "property": "C36",
   "status": "partial",
   "theorems": [
    "Verif.Props.C36_jones_rotation_partial",
    "Verif.Props.C36_jones_rotation_mueller",
    "Verif.Props.C36_mueller_rotation_partial",
    "Verif.Props.C36_mueller_rotation_violation"
   ],
   "note": "JonesRotation right; MuellerRotation right except its third row (violation proved: the identity does not stay the identity). The two functions also take different units."
  },
  {
   "property": "C37",
   "status": "proved",
   "theorems": [
    "Verif.Props.C37_zero_thickness",
    "Verif.Props.C37_split_layer",
    "Verif.Props.C37_concatenation",
    "Verif.Props.C37_empty",
    "Verif.Props.C37_exists",
    "Verif.Props.C37_zero_layer",
    "Verif.Props.C37_split"
   ],
   "note": "Zero thickness, splitting, concatenation and existence of the transfer matrix for all physical layers."
  },
  {
   "property": "C38",
   "status": "partial",
   "theorems": [
    "Verif.Beam.C38_bookkeeping",
    "Verif.Beam.C38_creation_order_partial",
    "Verif.Beam.C38_failure",
    "Verif.Beam.C38_append",
    "Verif.Beam.C38_violation_reuse"
   ],
   "note": "Counts, lists, disjointness proved for every reachable state; numbering in creation order needs that nobody calls reuse_blm between ghosts or assigns ghost_idx (C38_violation_reuse shows reuse_blm breaks it)."
  },
  {
   "property": "C39",
   "status": "proved",
   "theorems": [
    "Verif.Beam.C39_cascade",
    "Verif.Beam.C39_ghost_alone",
    "Verif.Timeline.C39_dead_ghosts",
    "Verif.Timeline.C39_dead_beam"
   ],
   "note": "Cascade for every reachable beam heap; timelines: dead ghosts change nothing, dead main beams are refused."
  },
  {
   "property": "C40",
   "status": "partial",
   "theorems": [
    "Verif.Beam.C40_limits",
    "Verif.Beam.C40_mmax_partial",
    "Verif.Beam.C40_defaults",
    "Verif.Beam.C40_lmax_from_fwhm",
    "Verif.Beam.C40_violation_lmax_none",
    "Verif.Beam.C40_violation_reassign",
    "Verif.Beam.C40_violation_negative_mmax",
    "Verif.Beam.C40_violation_lmax_zero"
   ],
   "note": "Holds for every reachable state under the stated exclusions; the violations show lmax=None in the constructor always fails, a later lmax is not propagated to mmax, negative mmax is kept and lmax=0 needs a width."
  },
  {
   "property": "C41",
   "status": "partial",
   "theorems": [
    "Verif.Beam.C41_inherit_partial",
    "Verif.Beam.C41_limits_partial",
    "Verif.Beam.C41_name",
    "Verif.Beam.C41_violation_not_inherited"
   ],
   "note": "Proved for 13 plain options plus the limits and the name; violation: sensitive_freq, symmetric, hwp, hwp_mueller and idx are not inherited."
  },
  {
   "property": "C42",
   "status": "partial",
   "theorems": [
    "Verif.Props.C42_gaussian",
    "Verif.Props.C42_polarized",
    "Verif.Props.C42_proportional_partial",
    "Verif.Props.C42_unpolarized_ignores_amplitude",
    "Verif.Props.C42_violation"
   ],
   "note": "Monopole equals the amplitude for Gaussian beams and normalized polarized files; all coefficients are proportional to the amplitude except for normalized unpolarized files, where the amplitude cancels (C42_violation)."
  },
  {
   "property": "C43",
   "status": "partial",
   "theorems": [
    "Verif.FocalPlane.C43_count_partial",
    "Verif.FocalPlane.C43_remove",
    "Verif.FocalPlane.C43_violation_failed_create",
    "Verif.FocalPlane.C43_violation_remove_none",
    "Verif.FocalPlane.C43_violation_input"
   ],
   "note": "ndet equals the number of detectors for histories of successful operations; violated by failed calls, by removing from a pair holding None and by input_focal_plane (witnesses proved)."
  },
  {
   "property": "C44",
   "status": "partial",
   "theorems": [
    "Verif.FocalPlane.C44_kill_partial",
    "Verif.FocalPlane.C44_violation_empty_slot"
   ],
   "note": "Exactly the requested number of detectors dies, each with all its ghosts, when no slot is empty; an empty slot breaks the count (witness proved)."
  },
  {
   "property": "C45",
   "status": "partial",
   "theorems": [
    "Verif.FocalPlane.C45_set",
    "Verif.FocalPlane.C45_set_plain",
    "Verif.FocalPlane.C45_set_dead",
    "Verif.FocalPlane.C45_add_partial",
    "Verif.FocalPlane.C45_violation_add_ghosts",
    "Verif.FocalPlane.C45_violation_random"
   ],
   "note": "set_global_prop: exactly the selected detectors and ghosts get the value. add_to_prop: proved for main beams with numeric values; with ghosts a shared list value is a problem (witnesses proved)."
  },
  {
   "property": "C46",
   "status": "proved",
   "theorems": [
    "Verif.Timeline.C46_detector_timeline",
    "Verif.Timeline.C46_order"
   ],
   "note": "Model of scan/_scan_detector with qpoint and healpy lookups arbitrary; exact real arithmetic. C46_detector_timeline gives the timeline sample by sample for any previous tod; C46_order the independence of order."
  },
  {
   "property": "C47",
   "status": "proved",
   "theorems": [
    "Verif.Timeline.C47_modulation",
    "Verif.Timeline.C47_modulation_real",
    "Verif.Timeline.C47_reality",
    "Verif.Timeline.C47_negative_rejected"
   ],
   "note": "Recursive and direct phases, pixels and interpolation, arbitrary previous timeline."
  },
  {
   "property": "C48",
   "status": "proved",
   "theorems": [
    "Verif.Props.C48_linear"
   ],
   "note": "End to end: making the spin maps of the main beam and the ghosts and scanning them. Real factors; both skies have the same band limit."
  },
  {
   "property": "C49",
   "status": "proved",
   "theorems": [
    "Verif.Props.C49_terminates",
    "Verif.Props.C49_selection",
    "Verif.Props.C49_elevation_limit"
   ],
   "note": "radec2azel (qpoint) is an arbitrary function of patch and time; no NaNs."
  },
  {
   "property": "C50",
   "status": "partial",
   "theorems": [
    "Verif.Props.C50_sawtooth_profile",
    "Verif.Props.C50_triangle_profile",
    "Verif.Props.C50_pointing_partial",
    "Verif.Props.C50_violation_staring",
    "Verif.Props.C50_violation_short_check"
   ],
   "note": "True for non-zero throw; zero throw raises ValueError unless the check interval divides the chunk; check interval below one sample raises ZeroDivisionError."
  },
  {
   "property": "C51",
   "status": "partial",
   "theorems": [
    "Verif.Props.C51_violation_no_effect"
   ],
   "note": "False for every input: flag0 is computed and never used."
  },
  {
   "property": "C52",
   "status": "partial",
   "theorems": [
    "Verif.Props.C52_contiguous",
    "Verif.Props.C52_lookup",
    "Verif.Props.C52_coverage_partial",
    "Verif.Props.C52_missing_samples",
    "Verif.Props.C52_tiles_partial",
    "Verif.Props.C52_violation_coverage",
    "Verif.Props.C52_violation_empty",
    "Verif.Props.C52_violation_index"
   ],
   "note": "Contiguity, index = position, lookup of own parameters for all schedules of scans of positive duration; coverage of min(nsamp, length) if scan lengths are multiples of the chunk size (otherwise up to one chunk of samples is missing, C52_missing_samples and C52_violation_coverage); zero-duration scans break the lookup (C52_violation_index)."
  },
  {
   "property": "C53",
   "status": "partial",
   "theorems": [
    "Verif.Props.C53_triangle_partial",
    "Verif.Props.C53_triangle_ends",
    "Verif.Props.C53_violation",
    "Verif.Props.C53_pointing_partial"
   ],
   "note": "Triangle between the scheduled azimuths, every sample covered, for az0 < az1, and the pointing of each chunk of a schedule. False for intervals through north: the sweep goes the long way round (C53_violation)."
  },
  {
   "property": "C54",
   "status": "partial",
   "theorems": [
    "Verif.Props.C54_latitude_partial",
    "Verif.Props.C54_longitude",
    "Verif.Props.C54_violation",
    "Verif.Props.C54_violation_direction"
   ],
   "note": "Value of the latitude is continuous for all chunks; the longitude changes sign at each chunk boundary (C54_longitude, C54_violation) and the direction of the precession is lost (C54_violation_direction)."
  },
  {
   "property": "C55",
   "status": "partial",
   "theorems": [
    "Verif.Props.C55_memmap_partial",
    "Verif.Props.C55_violation_ground"
   ],
   "note": "Boresight pointing proved; ground pointing is stale with a memory map. One rank."
  },
  {
   "property": "C56",
   "status": "partial",
   "theorems": [
    "Verif.Spinmaps.C56_sky_detected",
    "Verif.Spinmaps.C56_beam_detected_partial",
    "Verif.Spinmaps.C56_violation"
   ],
   "note": "Sky rows: always detected. Beam rows: only rows with index at least the number of sky rows are looked at (the second loop reuses the counter), so with three sky rows and three beam rows nothing of the beam is checked: proved as a violation; the partial theorem covers the rows that are looked at."
  },
  {
   "property": "C57",
   "status": "partial",
   "theorems": [
    "Verif.Spinmaps.C57_lookup_partial",
    "Verif.Spinmaps.C57_reuse_violation"
   ],
   "note": "Each ghost index gets the maps of the first ghost with that index when the indices are 0..k-1 in the set of ghosts; indices with gaps fail. Two ghosts that share an index but differ in their coefficients share maps: proved as a violation."
  },
  {
   "property": "C58",
   "status": "partial",
   "theorems": [
    "Verif.Props.C58_hwpang_rotating_violation",
    "Verif.Props.C58_hwpang_partial",
    "Verif.Props.C58_hwpang_zero_violation",
    "Verif.Props.C58_ctime0_partial",
    "Verif.Props.C58_ctime0_zero_violation",
    "Verif.Props.C58_location_partial",
    "Verif.Props.C58_location_zero_violation"
   ],
   "note": "False of the code for hwpang, ctime0, latitude and longitude, where 0 is read as not given; non-zero values are proved to be used. With boresight rotation the plate angle of a chunk is dropped altogether (C58_hwpang_rotating_violation)."
  },
  {
   "property": "C59",
   "status": "partial",
   "theorems": [
    "Verif.FocalPlane.C59_reflected_partial",
    "Verif.FocalPlane.C59_crosstalk_partial",
    "Verif.FocalPlane.C59_violation_accumulates"
   ],
   "note": "Proved for reflected and crosstalk ghosts of detectors without earlier ghosts; repeated calls accumulate perturbations on the shared options (witness proved)."
  },
  {
   "property": "C60",
   "status": "partial",
   "theorems": [
    "Verif.Props.C60_blm2bl_partial",
    "Verif.Props.C60_wraparound_violation"
   ],
   "note": "All m except m = 2 lmax + 3, where the slice wraps around (C60_wraparound_violation)."
  },
  {
   "property": "C61",
   "status": "partial",
   "theorems": [
    "Verif.Props.C61_arguments_ignored_violation",
    "Verif.Props.C61_defaults_partial",
    "Verif.Props.C61_angles_matter"
   ],
   "note": "Arguments are ignored by l2_scan (violation proved); only the default motion holds (C61_defaults_partial)."
  },
  {
   "property": "C62",
   "status": "partial",
   "theorems": [
    "Verif.Props.C62_psi_partial"
   ],
   "note": "Sine/cosine characterisation under non-degeneracy hypotheses; the rotation to celestial coordinates by qpoint is outside the model."
  },
  {
   "property": "C63",
   "status": "proved",
   "theorems": [
    "Verif.Props.C63_transparent"
   ],
   "note": "All numbers of layers, all physical materials."
  },
  {
   "property": "C64",
   "status": "proved",
   "theorems": [
    "Verif.Props.C64_models",
    "Verif.Props.C64_design",
    "Verif.Props.C64_transfer_exists",
    "Verif.Props.C64_compute_mueller",
    "Verif.Props.C64_stack_builder"
   ],
   "note": "All names of choose_HWP_model; regularity of the transfer matrix proved from passivity at normal incidence."
  },
  {
   "property": "C65",
   "status": "proved",
   "theorems": [
    "Verif.Props.C65_energy"
   ],
   "note": "Energy balance for stacks of any length at normal incidence over the exact complex model."
  },
  {
   "property": "C66",
   "status": "proved",
   "theorems": [
    "Verif.Props.C66_rotation"
   ],
   "note": "Any stack at normal incidence."
  },
  {
   "property": "C67",
   "status": "partial",
   "theorems": [
    "Verif.Data.C67_rescan_after_reset_partial",
    "Verif.Data.C67_violation"
   ],
   "note": "False without explicit resets; proved with them."
  },
  {
   "property": "C68",
   "status": "partial",
   "theorems": [
    "Verif.Props.C68_aligned_partial",
    "Verif.Props.C68_violation_generic",
    "Verif.Props.C68_strictly_az",
    "Verif.Props.C68_violation_strictly_az"
   ],
   "note": "True for aligned chunks; false in general, profile and checks restart with each chunk."
  },
  {
   "property": "C69",
   "status": "proved",
   "theorems": [
    "Verif.FocalPlane.C69_grid",
    "Verif.FocalPlane.C69_detectors",
    "Verif.FocalPlane.C69_succeeds"
   ],
   "note": "Every grid size and option dictionary, from every reachable focal plane; the new detectors are main beams with the limits asked for (C69_detectors), and with good options the call returns normally (C69_succeeds)."
  },
  {
   "property": "C70",
   "status": "partial",
   "theorems": [
    "Verif.Spinmaps.C70_ground_beam_partial",
    "Verif.Spinmaps.C70_ground_beam_violation",
    "Verif.Spinmaps.C70_ground_coefficients_partial",
    "Verif.Spinmaps.C70_ground_coefficients_violation",
    "Verif.Timeline.C70_ground_actual",
    "Verif.Timeline.C70_ground_partial",
    "Verif.Timeline.C70_ghost_violation",
    "Verif.Timeline.C70_save_point_violation"
   ],
   "note": "Actual behaviour proved; sum of sky and ground holds without ghosts (partial); with ghosts the ground of a ghost is never added, with save points the stored timeline is the ground alone, and the ground map is made with the coefficients of the last ghost: proved as violations."
  },
  {
   "property": "C71",
   "status": "proved",
   "theorems": [
    "Verif.Props.C71_convolution"
   ],
   "note": "Spherical harmonics and pointing functions are arbitrary, with the conjugation symmetry of the former. Proved for complete input rows (InputOk) and beams without Mueller matrix."
  },
  {
   "property": "C72",
   "status": "partial",
   "theorems": [
    "Verif.Props.C72_identity_partial",
    "Verif.Props.C72_violation"
   ],
   "note": "Proved for detectors at polarization angle 0, all skies, beams and HWP angles. C72_violation: at 45 degrees the identity matrix changes the timeline, because the maps without HWP modulation ignore the polarization angle."
  },
  {
   "property": "C73",
   "status": "partial",
   "theorems": [
    "Verif.Props.C73_plate_partial",
    "Verif.Props.C73_violation",
    "Verif.Props.C73_angles_partial"
   ],
   "note": "Proved for matrices that couple I (V) with Q symmetrically and not with U, at polarization angle 0 (C73_plate_partial) and, for any beam, at the angles at which the plate is simulated (C73_angles_partial: the Q, U block has no part that commutes with rotations or the angle is a multiple of 180 degrees; no coupling of I or V with Q or the angle is a multiple of 90 degrees; e.g. an ideal plate at any angle). C73_violation: a U to I coupling is lost, the I maps with twice the HWP angle use other elements of the matrix. C129 gives the timeline for every matrix and polarization angle when the beam is symmetric."
  },
  {
   "property": "C74",
   "status": "proved",
   "theorems": [
    "Verif.Props.C74_symmetric"
   ],
   "note": "All axisymmetric beams and skies, with or without Mueller matrix, maximum spin at least 2."
  },
  {
   "property": "C75",
   "status": "proved",
   "theorems": [
    "Verif.Props.C75_ideal"
   ],
   "note": "Axisymmetric beams with real polarization coefficients, sky without V, all angles."
  },
  {
   "property": "C76",
   "status": "proved",
   "theorems": [
    "Verif.Props.C76_gaussian",
    "Verif.Props.C76_symmetric",
    "Verif.Props.C76_gauss_blm"
   ],
   "note": "Formula for all coefficients, and the symmetry conditions that C71-C75 ask for."
  },
  {
   "property": "C77",
   "status": "partial",
   "theorems": [
    "Verif.Props.C77_copolar_partial",
    "Verif.Props.C77_three_rows",
    "Verif.Props.C77_violation"
   ],
   "note": "Holds for files without exactly three rows; for three rows the flag has no effect (operator precedence), C77_violation."
  },
  {
   "property": "C78",
   "status": "partial",
   "theorems": [
    "Verif.Props.C78_scale_partial",
    "Verif.Props.C78_unchanged_partial",
    "Verif.Props.C78_normalize_partial",
    "Verif.Props.C78_violation"
   ],
   "note": "Holds without flags and for lists; normalize alone is idempotent; with deconv_q the caller's array is changed and a second call differs (C78_violation)."
  },
  {
   "property": "C79",
   "status": "partial",
   "theorems": [
    "Verif.Props.C79_pol_beam",
    "Verif.Props.C79_ratio_partial",
    "Verif.Props.C79_violation"
   ],
   "note": "Formula for all flags; the relative scale of Q and U is kept without normalize and lost with it (C79_violation)."
  },
  {
   "property": "C80",
   "status": "partial",
   "theorems": [
    "Verif.Props.C80_polarized_partial",
    "Verif.Props.C80_copolar",
    "Verif.Props.C80_violation"
   ],
   "note": "Full formula for .npy files and for .fits files whose tables share lmax and mmax; tables with different lmax are misplaced silently (C80_violation)."
  },
  {
   "property": "C81",
   "status": "partial",
   "theorems": [
    "Verif.Props.C81_npy_partial",
    "Verif.Props.C81_violation"
   ],
   "note": "The .npy part holds; the .fits fallback is unreachable (C81_violation)."
  },
  {
   "property": "C82",
   "status": "partial",
   "theorems": [
    "Verif.Props.C82_whole_scans_partial",
    "Verif.Props.C82_violation"
   ],
   "note": "Holds for chunks that are whole scans; the phase of later chunks is wrong (C82_violation)."
  },
  {
   "property": "C83",
   "status": "partial",
   "theorems": [
    "Verif.Props.C83_parse_partial",
    "Verif.Props.C83_violation"
   ],
   "note": "Holds for files of two or more lines; a one-line file raises IndexError (C83_violation)."
  },
  {
   "property": "C84",
   "status": "partial",
   "theorems": [
    "Verif.Props.C84_whole_periods_partial",
    "Verif.Props.C84_violation"
   ],
   "note": "Holds for chunks starting at whole spin periods; every chunk starts at azimuth zero (C84_violation)."
  },
  {
   "property": "C85",
   "status": "partial",
   "theorems": [
    "Verif.Props.C85_azel_partial",
    "Verif.Props.C85_violation",
    "Verif.Props.C85_jitter",
    "Verif.Props.C85_no_jitter",
    "Verif.Props.C85_violation_jitter"
   ],
   "note": "Azimuth and elevation are the same in all passes; longitude and latitude are not reset between passes (C85_violation). With jitter only the elevation changes (C85_jitter), but every pass draws it anew (C85_violation_jitter)."
  },
  {
   "property": "C86",
   "status": "proved",
   "theorems": [
    "Verif.Props.C86_binning",
    "Verif.Props.C86_order",
    "Verif.Props.C86_cut"
   ],
   "note": "Sums of qpoint's from_tod written out from its documentation; without filters (see C91 and following)."
  },
  {
   "property": "C87",
   "status": "proved",
   "theorems": [
    "Verif.Props.C87_recovery"
   ],
   "note": "Relative to the law Agree (binning and scanning use the same pixel and angle) and SolveOk (qpoint solves regular pixels)."
  },
  {
   "property": "C88",
   "status": "proved",
   "theorems": [
    "Verif.Props.C88_hits",
    "Verif.Props.C88_regular"
   ],
   "note": ""
  },
  {
   "property": "C89",
   "status": "proved",
   "theorems": [
    "Verif.Props.C89_preview"
   ],
   "note": "For ground_alm=None, as in the statement."
  },
  {
   "property": "C90",
   "status": "partial",
   "theorems": [
    "Verif.Props.C90_flagged_partial",
    "Verif.Props.C90_all_flagged",
    "Verif.Props.C90_flag_false",
    "Verif.Props.C90_violation"
   ],
   "note": "An explicit array of more than one flag is rejected with ValueError (C90_violation); all other parts are proved."
  },
  {
   "property": "C91",
   "status": "partial",
   "theorems": [
    "Verif.Props.C91_band_partial",
    "Verif.Props.C91_linear",
    "Verif.Props.C91_sinusoid",
    "Verif.Props.C91_violation",
    "Verif.Props.C91_backwards_violation",
    "Verif.Props.C91_short_violation"
   ],
   "note": "Proved when 5f is below the Nyquist frequency; otherwise the window is cut off and not centred on 4f (C91_violation). A plate that turns backwards (negative frequency) loses every timeline: it is set to zero (C91_backwards_violation); a timeline with less than a tenth of a revolution raises ValueError (C91_short_violation). rfft/irfft written out from their documentation, exact arithmetic."
  },
  {
   "property": "C92",
   "status": "partial",
   "theorems": [
    "Verif.Props.C92_butterworth_partial",
    "Verif.Props.C92_profile",
    "Verif.Props.C92_violation",
    "Verif.Props.C92_mean"
   ],
   "note": "Every cutoff except zero, which turns the timeline into NaN (C92_violation)."
  },
  {
   "property": "C93",
   "status": "proved",
   "theorems": [
    "Verif.Props.C93_maps",
    "Verif.Props.C93_offset",
    "Verif.Props.C93_hits",
    "Verif.Props.C93_set_filter_dict",
    "Verif.Props.C93_refused"
   ],
   "note": "For filters that are set up properly (FilterOk)."
  },
  {
   "property": "C94",
   "status": "proved",
   "theorems": [
    "Verif.Beam.C94_truth",
    "Verif.Beam.C94_assign",
    "Verif.Beam.C94_kept",
    "Verif.Beam.C94_created"
   ],
   "note": "polang_truth and get_offsets after any history; numbers only (strings would concatenate)."
  },
  {
   "property": "C95",
   "status": "partial",
   "theorems": [
    "Verif.Beam.C95_cached",
    "Verif.Beam.C95_deleted_partial",
    "Verif.Beam.C95_renewed",
    "Verif.Beam.C95_reused",
    "Verif.Beam.C95_violation_ghost"
   ],
   "note": "Life cycle of coefficients proved for all histories; C95_violation_ghost proves that delete_blm on a ghost raises AttributeError."
  },
  {
   "property": "C96",
   "status": "proved",
   "theorems": [
    "Verif.Props.C96_maps",
    "Verif.Props.C96_maps_turning",
    "Verif.Props.C96_maps_static",
    "Verif.Props.C96_generic",
    "Verif.Props.C96_ranks",
    "Verif.Props.C96_chunks",
    "Verif.Props.C96_hits"
   ],
   "note": "Whole-scan model; Steady (pointing repeats in every pass) is proved for the generic implement_scan in C96_generic, a hypothesis for other strategies. Rotation under the long-chunk condition of C09."
  },
  {
   "property": "C97",
   "status": "proved",
   "theorems": [
    "Verif.Props.C97_preview"
   ],
   "note": "Same hypotheses as C96."
  },
  {
   "property": "C98",
   "status": "proved",
   "theorems": [
    "Verif.Props.C98_recovery",
    "Verif.Props.C98_recovery_static",
    "Verif.Props.C98_recovery_turning"
   ],
   "note": "End-to-end: scan of all pairs on all ranks, reduction, solution. healpy/qpoint by their laws (ExtOk, PixOk, SolveOk, Agree)."
  },
  {
   "property": "C99",
   "status": "partial",
   "theorems": [
    "Verif.Props.C99_again_partial",
    "Verif.Props.C99_again_violation",
    "Verif.Props.C99_unpaired_violation",
    "Verif.Props.C99_second_beam_violation",
    "Verif.Props.C99_ground_stays",
    "Verif.Props.C99_ground_violation"
   ],
   "note": "C99_again_partial needs explicit resets between scans; without them it is false (C99_again_violation). Unpaired second detectors fail, the beam of the second detector is ignored, chunks keep the ground mark."
  },
  {
   "property": "C100",
   "status": "proved",
   "theorems": [
    "Verif.Props.C100_sum",
    "Verif.Props.C100_order",
    "Verif.Props.C100_dead",
    "Verif.Props.C100_kill"
   ],
   "note": "For whole scans under the hypotheses of C96 (bundled in Session)."
  },
  {
   "property": "C101",
   "status": "proved",
   "theorems": [
    "Verif.Props.C101_linear",
    "Verif.Props.C101_solved"
   ],
   "note": "Whole scans under the hypotheses of C96; with ghosts, asymmetric beams, Mueller matrices and cross-talk. Solved maps under the law SolveOk of qpoint's solver."
  },
  {
   "property": "C102",
   "status": "proved",
   "theorems": [
    "Verif.Timeline.C102_returned"
   ],
   "note": "For scans without ground template (with one and save_point the code fails, see C70)."
  },
  {
   "property": "C103",
   "status": "proved",
   "theorems": [
    "Verif.Timeline.C103_consistent",
    "Verif.Timeline.C103_refused",
    "Verif.Timeline.C103_missing"
   ],
   "note": "C103_refused asks for at least one map in each entry (numpy would read shape[1] of an empty array)."
  },
  {
   "property": "C104",
   "status": "partial",
   "theorems": [
    "Verif.Props.C104_average_partial",
    "Verif.Props.C104_refused",
    "Verif.Props.C104_between",
    "Verif.Props.C104_scale",
    "Verif.Props.C104_passive",
    "Verif.Props.C104_violation_upper_edge",
    "Verif.Props.C104_violation_passband_units"
   ],
   "note": "Proved: weighted average with trapezoidal weights at the sampled frequencies, when there is no finite result, refusals, normalisation, between the extremes, passivity. False of the code and proved so: the upper edge of the band is never sampled (C104_violation_upper_edge); a passband in the documented GHz is refused (C104_violation_passband_units). File parsing is not modelled."
  },
  {
   "property": "C105",
   "status": "partial",
   "theorems": [
    "Verif.Props.C105_reuse_existing",
    "Verif.Props.C105_reuse_first",
    "Verif.Props.C105_reuse_same",
    "Verif.Props.C105_reuse_stored_partial",
    "Verif.Props.C105_stored_partial",
    "Verif.Props.C105_stored_turning_partial",
    "Verif.Props.C105_maps_unchanged",
    "Verif.Props.C105_binning",
    "Verif.Props.C105_unbinned_partial",
    "Verif.Props.C105_arguments",
    "Verif.Props.C105_ground_violation"
   ],
   "note": "Proved without ground, for spin maps made anew in each pass and for reused maps, with and without binning; with a ground, storing pointing is shown to fail always (violation)."
  },
  {
   "property": "C106",
   "status": "proved",
   "theorems": [
    "Verif.Props.C106_ends",
    "Verif.Props.C106_maps",
    "Verif.Props.C106_recovery",
    "Verif.Props.C106_hang_violation"
   ],
   "note": "Generic implement_scan, scatter=True, with and without memory map. mpi4py is trusted to do what it documents (exchange). C106_hang_violation: an exception on one rank leaves the other one waiting."
  },
  {
   "property": "C107",
   "status": "partial",
   "theorems": [
    "Verif.Props.C107_external",
    "Verif.Props.C107_strictly_az",
    "Verif.Props.C107_schedule_partial",
    "Verif.Props.C107_satellite_partial",
    "Verif.Props.C107_satellite_violation",
    "Verif.Props.C107_l2_violation",
    "Verif.Props.C107_l2_single_partial",
    "Verif.Props.C107_ground_violation"
   ],
   "note": "External functions and strictly_az: proved for all missions, pairs and ranks. Schedules: scans that do not contain north and missions covered by chunks (C52, C53). Satellites: at most one pair per rank; C107_satellite_violation shows why. L2 scans fail as soon as the first chunk has two samples (C107_l2_violation); chunks of one sample are pointed as C34 says (C107_l2_single_partial), ground templates with external pointing too (C107_ground_violation)."
  },
  {
   "property": "C108",
   "status": "proved",
   "theorems": [
    "Verif.Props.C108_result",
    "Verif.Props.C108_settings",
    "Verif.Props.C108_recover",
    "Verif.Props.C108_generic",
    "Verif.Props.C108_external",
    "Verif.Props.C108_strictly_az",
    "Verif.Props.C108_satellite_violation",
    "Verif.Props.C108_leftover_violation"
   ],
   "note": "Every interruption point and history, for the generic scan (with memory map), external functions and strictly_az; scans with ground are left out because they mark the chunks for good (C99_ground_violation). Violations: the orbit of a satellite is not reset; samples binned before the interruption count twice if the maps are not allocated again."
  },
  {
   "property": "C109",
   "status": "proved",
   "theorems": [
    "Verif.Props.C109_existing",
    "Verif.Props.C109_first",
    "Verif.Props.C109_same",
    "Verif.Props.C109_one_each",
    "Verif.Props.C109_new_sky",
    "Verif.Props.C109_ranks_violation"
   ],
   "note": "Equalities of runs for every state, list and number of ranks. C109_ranks_violation: with different beams the result depends on the number of ranks."
  },
  {
   "property": "C110",
   "status": "partial",
   "theorems": [
    "Verif.Props.C110_actual",
    "Verif.Props.C110_sky_and_ground_partial",
    "Verif.Props.C110_adds_partial",
    "Verif.Props.C110_ranks",
    "Verif.Props.C110_generic",
    "Verif.Props.C110_preview_violation"
   ],
   "note": "Proved for detectors without live ghosts (C110_actual says what happens with them; C70_ghost_violation). C110_preview_violation: a preview with a ground bins the ground."
  },
  {
   "property": "C111",
   "status": "proved",
   "theorems": [
    "Verif.Props.C111_rounding",
    "Verif.Props.C111_ties",
    "Verif.Props.C111_ceil",
    "Verif.Props.C111_partition",
    "Verif.Props.C111_violation"
   ],
   "note": "Exponents unbounded. C111_violation shows that 2^53 is sharp."
  },
  {
   "property": "C112",
   "status": "partial",
   "theorems": [
    "Verif.Props.C112_exact",
    "Verif.Props.C112_within",
    "Verif.Props.C112_again_partial",
    "Verif.Props.C112_again_exact",
    "Verif.Props.C112_violation",
    "Verif.Props.C112_step_violation"
   ],
   "note": "Exact if the product is an integer, within one otherwise; C112_violation and C112_step_violation: one sample can be lost."
  },
  {
   "property": "C113",
   "status": "partial",
   "theorems": [
    "Verif.Props.C113_chunks",
    "Verif.Props.C113_monotone",
    "Verif.Props.C113_accuracy",
    "Verif.Props.C113_increasing_partial",
    "Verif.Props.C113_violation"
   ],
   "note": "Strict increase needs the stated bound; C113_violation without it."
  },
  {
   "property": "C114",
   "status": "partial",
   "theorems": [
    "Verif.Props.C114_hits",
    "Verif.Props.C114_order_partial",
    "Verif.Props.C114_violation"
   ],
   "note": "Hits exact; signal up to the stated bound; C114_violation: not bitwise."
  },
  {
   "property": "C115",
   "status": "proved",
   "theorems": [
    "Verif.Props.C115_settings",
    "Verif.Props.C115_recover",
    "Verif.Props.C115_recover_sky",
    "Verif.Props.C115_generic",
    "Verif.Props.C115_kept_violation"
   ],
   "note": "Recovery proved for scans with ground (C115_recover), for scans without ground after a new partition (C115_recover_sky), and the generic scan without memory map restores its pointing (C115_generic). C115_kept_violation: without a new partition a scan without ground fails after one with a ground."
  },
  {
   "property": "C116",
   "status": "partial",
   "theorems": [
    "Verif.Props.C116_any",
    "Verif.Props.C116_backwards_violation",
    "Verif.Props.C116_ground",
    "Verif.Props.C116_ground_turning_partial",
    "Verif.Props.C116_ground_ranks",
    "Verif.Props.C116_ground_lost",
    "Verif.Props.C116_maps",
    "Verif.Props.C116_maps_turning_partial",
    "Verif.Props.C116_off",
    "Verif.Props.C116_hits",
    "Verif.Props.C116_ranks",
    "Verif.Props.C116_cutoff_zero_violation",
    "Verif.Props.C116_offset",
    "Verif.Props.C116_chunks_violation"
   ],
   "note": "Maps proved (C116_maps; for a turning plate C116_maps_turning_partial: the plate makes more than half a revolution in every stretch, and the band is below the Nyquist frequency; C116_any: any plate and any filters that return, with gains between 0 and 1), also with a ground template (C116_ground, C116_ground_turning_partial, C116_ground_ranks); a ground that is constant in every stretch is lost (C116_ground_lost). Projection matrices unchanged (C116_hits), off (C116_off), ranks (C116_ranks), constants lost (C116_offset). Violations: the maps depend on the partition in chunks (C116_chunks_violation); cutoff 0 gives NaN without an error (C116_cutoff_zero_violation); filter_4fhwp with a plate that turns backwards gives maps without signal (C116_backwards_violation)."
  },
  {
   "property": "C117",
   "status": "partial",
   "theorems": [
    "Verif.Beam.C117_family",
    "Verif.Beam.C117_maps",
    "Verif.Beam.C117_again_partial",
    "Verif.Beam.C117_settles",
    "Verif.Beam.C117_fits_violation",
    "Verif.Beam.C117_handmade_violation",
    "Verif.Beam.C117_unused_violation",
    "Verif.Props.C117_blind_violation",
    "Verif.Props.C117_polarization_violation"
   ],
   "note": "Maps and state after the preparation proved (C117_maps), the hypotheses hold for all reachable families (C117_family), repetition (C117_again_partial), and from the second preparation on with any file (C117_settles). Violations: the limit of the main beam is read before its FITS file lowers it, so the second preparation differs from the first (C117_fits_violation); a symmetric beam with limit below 2 sees no polarization (C117_blind_violation, C117_polarization_violation); coefficients assigned by hand are lost after the first preparation (C117_handmade_violation); an unreadable file of a ghost of B that is not used stops the preparation (C117_unused_violation)."
  },
  {
   "property": "C118",
   "status": "partial",
   "theorems": [
    "Verif.Props.C118_ground",
    "Verif.Props.C118_ground_adds_partial",
    "Verif.Props.C118_kept",
    "Verif.Props.C118_preview",
    "Verif.Props.C118_reuse",
    "Verif.Props.C118_maps",
    "Verif.Props.C118_apart",
    "Verif.Props.C118_again_partial",
    "Verif.Props.C118_plates_partial",
    "Verif.Props.C118_convolution",
    "Verif.Props.C118_second_violation",
    "Verif.Props.C118_fits_violation"
   ],
   "note": "Maps and objects afterwards for any beams (C118_maps), with the convolution each detector sees (C118_convolution, with Mueller matrices C118_plates_partial), repeated scans for main beams without lower limit in their file (C118_again_partial; such pairs may share beams, C118_apart). Previews and reused spin maps leave the objects alone (C118_kept, C118_preview, C118_reuse). Violations: with a main beam whose file has a lower limit the second serial scan uses another limit than the first and than the second scan with MPI (C118_second_violation, concrete maps in C118_fits_violation). With a ground template: C118_ground and, for pairs without live ghosts, C118_ground_adds_partial. Without filters (for these see C116, which is about detector pairs with given beams)."
  },
  {
   "property": "C119",
   "status": "proved",
   "theorems": [
    "Verif.Props.C119_objects",
    "Verif.Props.C119_gaussian"
   ],
   "note": "C119_gaussian for create_focal_plane, C119_objects for any objects sharing an axisymmetric beam. New focal planes (combine=False or an empty one); no ghosts, no per-beam HWP Mueller matrix, crosstalk, filters or ground template."
  },
  {
   "property": "C120",
   "status": "partial",
   "theorems": [
    "Verif.Props.C120_used",
    "Verif.Props.C120_serial",
    "Verif.Props.C120_world",
    "Verif.Props.C120_communicator_partial",
    "Verif.Props.C120_collective",
    "Verif.Props.C120_violation_comm_ignored",
    "Verif.Props.C120_violation_left_out"
   ],
   "note": "Everything in the statement holds except for the communicator of the user: it is silently ignored if the launcher sets neither variable (C120_violation_comm_ignored), and COMM_NULL, which a process left out of it holds, is replaced by COMM_WORLD (C120_violation_left_out)."
  },
  {
   "property": "C121",
   "status": "partial",
   "theorems": [
    "Verif.Props.C121_shared_partial",
    "Verif.Props.C121_kill",
    "Verif.Props.C121_split",
    "Verif.Props.C121_violation_scan",
    "Verif.Props.C121_violation_passes",
    "Verif.Props.C121_violation_kill",
    "Verif.Props.C121_violation_idx"
   ],
   "note": "Proved for histories without scatter=True (C121_shared_partial, C121_kill), and the split itself (C121_split). With scatter=True at creation or loading the code violates the property for every number of ranks above one: a scan misses pairs whatever its own scatter option (C121_violation_scan), the ranks make different numbers of passes (C121_violation_passes), killing raises on some ranks and kills too many on others (C121_violation_kill), indices repeat (C121_violation_idx)."
  },
  {
   "property": "C122",
   "status": "proved",
   "theorems": [
    "Verif.Props.C122_ranks",
    "Verif.Props.C122_serial",
    "Verif.Props.C122_two",
    "Verif.Props.C122_balanced"
   ],
   "note": "Exact arithmetic: in floating point singular matrices can have large finite condition numbers. proj_cond of qpoint enters through CondOk (infinite exactly for singular matrices), which cond_exists shows to be satisfiable."
  },
  {
   "property": "C123",
   "status": "partial",
   "theorems": [
    "Verif.Props.C123_plots_partial",
    "Verif.Props.C123_distinct",
    "Verif.Props.C123_refused",
    "Verif.Props.C123_round",
    "Verif.Props.C123_violation_dpi",
    "Verif.Props.C123_violation_scalar",
    "Verif.Props.C123_violation_fourth",
    "Verif.Props.C123_violation_clash",
    "Verif.Props.C123_violation_four_scalar",
    "Verif.Props.C123_violation_carried",
    "Verif.Props.C123_violation_zero",
    "Verif.Props.C123_violation_clipped",
    "Verif.Props.C123_violation_function"
   ],
   "note": "Proved for limits given by the user, without a resolution, and with dictionaries (for three maps) that set neither limits nor plotting functions; files distinct; wrong numbers of maps refused; rounding to one digit. Violations proved: the resolution is never used; a single symmetric limit is ignored without symmetric=True and fails for four maps; with dictionaries Stokes V is silently not plotted; limits in a dictionary are refused; limits left to the data are those of the first map, of its masked pixels too, are rounded below the data, and fail for zero; a plotting function given for the first map is used for all."
  },
  {
   "property": "C124",
   "status": "partial",
   "theorems": [
    "Verif.FocalPlane.C124_table_partial",
    "Verif.FocalPlane.C124_succeeds",
    "Verif.FocalPlane.C124_violation_replace",
    "Verif.FocalPlane.C124_violation_ignored",
    "Verif.FocalPlane.C124_violation_again"
   ],
   "note": "Proved for combine=True: contents of every new pair, existing detectors and count; success on an empty focal plane. Violations proved: combine=False always ends with a NameError; options documented as ignored are refused with a TypeError after the count has changed; the numbers start again from 0 with every call and are shared by A and B."
  },
  {
   "property": "C125",
   "status": "partial",
   "theorems": [
    "Verif.Props.C125_files",
    "Verif.Props.C125_no_files",
    "Verif.Props.C125_missing",
    "Verif.Props.C125_pairs_partial",
    "Verif.Props.C125_history",
    "Verif.Props.C125_violation_silent",
    "Verif.Props.C125_violation_empty",
    "Verif.Props.C125_violation_twice",
    "Verif.Props.C125_violation_other"
   ],
   "note": "Proved: the choice of files, when it fails, what each pair is if the files hold a dictionary or two separate ones, and that the call then is one of those in the histories of C17 and C43 to C45. Tags and directories without characters special to glob. Violations proved: names none of which contains the tag load nothing and raise nothing (and empty the focal plane); an empty list of names loads every file; a file with the same dictionary twice makes two detectors with the same number and angle, both dead with no_pairs; a file that is neither a dictionary nor a sequence repeats the detectors of the file before with angles shifted again."
  },
  {
   "property": "C126",
   "status": "partial",
   "theorems": [
    "Verif.Props.C126_isotropic_partial",
    "Verif.Props.C126_perpendicular_partial",
    "Verif.Props.C126_normal_partial",
    "Verif.Props.C126_violation_oblique",
    "Verif.Props.C126_violation_lossy"
   ],
   "note": "Proved for materials without losses: isotropic at any angle, crystals with the axis across the plane of incidence at any angle, and crystals in any orientation at normal incidence. Missing: oblique incidence in general orientations, where the claim is false. Violations proved: with the axis in the plane of incidence and oblique incidence the extraordinary wave is never carried, unless its phase is a multiple of pi (the code uses the effective index where the principal one belongs); with losses no layer of non-zero thickness carries the wave at normal incidence (the interfaces ignore the loss)."
  },
  {
   "property": "C127",
   "status": "proved",
   "theorems": [
    "Verif.Props.C127_films",
    "Verif.Props.C127_energy",
    "Verif.Props.C127_fresnel",
    "Verif.Props.C127_brewster",
    "Verif.Props.C127_coating",
    "Verif.Props.C127_halfwave"
   ],
   "note": "Indices with |n1 sin i| below every index (no total reflection). The specification has the loss in the phase thickness but not in the admittance, as the code has (see C126 for what this means)."
  },
  {
   "property": "C128",
   "status": "partial",
   "theorems": [
    "Verif.Props.C128_mueller",
    "Verif.Props.C128_stack",
    "Verif.Props.C128_plate",
    "Verif.Props.C128_band",
    "Verif.Props.C128_energy",
    "Verif.Props.C128_rotation_partial",
    "Verif.Props.C128_violation_rotation"
   ],
   "note": "Proved for JonesToMueller, Mueller, compute_mueller and BandAveragedMueller, for MuellerRotation only at multiples of 90 degrees (C128_rotation_partial). Violation proved: at other angles MuellerRotation (whose second rotation matrix has a wrong sign, see C36) makes Stokes parameters with Q^2+U^2 > I^2 out of fully polarized light behind a plate that does nothing."
  },
  {
   "property": "C129",
   "status": "partial",
   "theorems": [
    "Verif.Props.C129_any",
    "Verif.Props.C129_faithful",
    "Verif.Props.C129_right_partial",
    "Verif.Props.C129_wrong",
    "Verif.Props.C129_violation"
   ],
   "note": "C129_any gives the timeline for every plate: it is that of another plate (Spec/AnyPlate.lean, acted), with the polarization angle counted in the opposite sense. C129_faithful says exactly for which plates and angles the two agree, C129_right_partial that the timeline is then right, C129_wrong that otherwise some sky and HWP angle give a wrong signal. Violation proved: at 45 degrees the leakage of I into Q is lost."
  },
  {
   "property": "C130",
   "status": "proved",
   "theorems": [
    "Verif.Props.C130_matrix",
    "Verif.Props.C130_frame",
    "Verif.Props.C130_history",
    "Verif.Props.C130_presets"
   ],
   "note": "C130_matrix says which matrix the beam has after success and that a failure leaves the one it had; C130_frame that nothing else changes; C130_history that earlier calls make no difference; C130_presets that all presets work on the axis. The HWP object is shared, so its stack does change for all beams that hold it; the matrices do not."
  },
  {
   "property": "C131",
   "status": "partial",
   "theorems": [
    "Verif.Props.C131_matrix",
    "Verif.Props.C131_passive",
    "Verif.Props.C131_angles",
    "Verif.Props.C131_scan_partial",
    "Verif.Props.C131_symmetric_partial",
    "Verif.Props.C131_wrong",
    "Verif.Props.C131_presets",
    "Verif.Props.C131_violation"
   ],
   "note": "Proved: the matrix for every aligned stack at every frequency and angle of incidence, that neither amplitude exceeds one, the timelines at polarization angles that are multiples of 180 degrees (with V for symmetric beams), and at all angles if the amplitudes are opposite; C131_angles says that at no other angle the plate is simulated as it is, C131_wrong that some sky is then measured wrong. Violation proved: behind a clear window a detector at 90 degrees measures polarization with the wrong sign."
  },
  {
   "property": "C132",
   "status": "partial",
   "theorems": [
    "Verif.Props.C132_same_partial",
    "Verif.Props.C132_invalid",
    "Verif.Props.C132_violation",
    "Verif.Props.C132_empty_violation"
   ],
   "note": "The relation and the exceptions are proved for True and False. Violations proved: another value makes Mueller raise NameError (the exception it means to raise is misspelt), and a stack without layers, which changes nothing, has no matrices (AttributeError)."
  },
  {
   "property": "C133",
   "status": "partial",
   "theorems": [
    "Verif.Props.C133_ends",
    "Verif.Props.C133_maps",
    "Verif.Props.C133_l2_violation",
    "Verif.Props.C133_l2_fails_violation",
    "C133_l2_one_each_partial"
   ],
   "note": "Proved for functions of the user, strictly_az, satellites (for jitter see C136) and schedules. L2 scans depend on the number of samples in the first chunk: with exactly one per process the chunk is pointed right although a single process raises NameError (C133_l2_one_each_partial); with fewer than two per process, but not exactly one, a process waits forever (C133_l2_violation); with two or more per process all of them raise NameError (C133_l2_fails_violation)."
  },
  {
   "property": "C134",
   "status": "proved",
   "theorems": [
    "Verif.Props.C134_twins",
    "Verif.Props.C134_single",
    "Verif.Props.C134_gaussian"
   ],
   "note": "C134_twins for any beams, C134_gaussian from create_focal_plane on, C134_single for detectors without live partner."
  },
  {
   "property": "C135",
   "status": "proved",
   "theorems": [
    "Verif.Props.C135_objects",
    "Verif.Props.C135_gaussian",
    "Verif.Props.C135_layers"
   ],
   "note": "C135_objects for any symmetric co-polar beams, C135_gaussian from create_focal_plane on, C135_layers for plates that are given by their layers. For plates that are not half-wave plates see C129 and C131."
  },
  {
   "property": "C136",
   "status": "partial",
   "theorems": [
    "Verif.Props.C136_agree",
    "Verif.Props.C136_seeded",
    "Verif.Props.C136_none",
    "Verif.Props.C136_scan_partial"
   ],
   "note": "Proved for the pointing of a chunk (C136_agree, C136_seeded, C136_none) and for whole scans with at most one detector pair on each process (C136_scan_partial). With several pairs on a process every pair has a jitter of its own (C85_violation_jitter)."
  },
  {
   "property": "C137",
   "status": "proved",
   "theorems": [
    "Verif.Props.C137_linear",
    "Verif.Props.C137_gain",
    "Verif.Props.C137_ghosts"
   ],
   "note": "C137_linear is the general statement; C137_gain and C137_ghosts follow. A set of beams differs from the other in its coefficients only."
  },
  {
   "property": "C138",
   "status": "proved",
   "theorems": [
    "Verif.Props.C138_pairs"
   ],
   "note": "C138_pairs compares two skies that share rows. Beams behind a Mueller matrix are outside the statement: such a plate mixes the two by design."
  },
  {
   "property": "C139",
   "status": "proved",
   "theorems": [
    "Verif.Props.C139_spinmaps",
    "Verif.Props.C139_scans"
   ],
   "note": "C139_spinmaps for one beam, C139_scans for whole scans with all options (coefficients of the two settings are compared for every detector). Band limits must be complete as InputOk says."
  },
  {
   "property": "C140",
   "status": "proved",
   "theorems": [
    "Verif.Props.C140_rebinned"
   ],
   "note": "C140_rebinned. Agree (pixel and angle of qpoint's binning and of bore2pix are the same) is assumed of qpoint."
  },
  {
   "property": "C141",
   "status": "proved",
   "theorems": [
    "Verif.Props.C141_timelines",
    "Verif.Props.C141_map"
   ],
   "note": "C141_timelines, C141_map. Of the harmonics only Y_00 = 1/sqrt(4 pi) is assumed, of the interpolation only that weights sum to 1. Beams with a Mueller matrix are outside: they turn temperature into polarization by design."
  },
  {
   "property": "C142",
   "status": "proved",
   "theorems": [
    "Verif.Props.C142_turned",
    "Verif.Props.C142_full_turns",
    "Verif.Props.C142_in_boresight",
    "Verif.Props.C142_polarization"
   ],
   "note": "C142_turned, C142_full_turns, C142_in_boresight, C142_polarization. Assumed of qpoint: a turned offset from a boresight is the offset from the turned boresight, quaternions and their negatives are the same (Joined), and turning a detector about its line of sight shifts its position angle (Rolls); both shown to be satisfiable."
  },
  {
   "property": "C143",
   "status": "proved",
   "theorems": [
    "Verif.Props.C143_turned",
    "Verif.Props.C143_quarter_turns",
    "Verif.Props.C143_half_turns"
   ],
   "note": "C143_turned, C143_quarter_turns, C143_half_turns. Assumed of qpoint: the weights of binning are those of the position angle of scanning (Agree) and solve_map solves the normal equations (SolveOk)."
  },
  {
   "property": "C144",
   "status": "proved",
   "theorems": [
    "Verif.Props.C144_gaussian",
    "Verif.Props.C144_cross_talk",
    "Verif.Props.C144_plate"
   ],
   "note": "C144_gaussian, C144_cross_talk, C144_plate. Assumed of healpy and qpoint as in C119."
  },
  {
   "property": "C145",
   "status": "partial",
   "theorems": [
    "Verif.Props.C145_killed",
    "Verif.Props.C145_gaussian",
    "Verif.Props.C145_removed_partial",
    "Verif.Props.C145_violation_removed"
   ],
   "note": "C145_killed, C145_gaussian: killed channels, fully (no empty slots, see C44). C145_removed_partial: detectors taken away unless an A is taken away and its B stays; then scan_instrument_mpi ends with an AttributeError: C145_violation_removed."
  },
  {
   "property": "C146",
   "status": "proved",
   "theorems": [
    "Verif.Props.C146_beams",
    "Verif.Props.C146_cross_talk",
    "Verif.Props.C146_gaussian",
    "Verif.Props.C146_plate"
   ],
   "note": "C146_beams, C146_gaussian, C146_plate, C146_cross_talk. Assumed of healpy and qpoint as in C119. Which files are chosen: C125. Files with the same dictionary twice are outside (C125_violation_twice)."
  },
  {
   "property": "C147",
   "status": "proved",
   "theorems": [
    "Verif.Props.C147_transmission",
    "Verif.Props.C147_turned_over",
    "Verif.Props.C147_plates",
    "Verif.Props.C147_reflection",
    "Verif.Props.C147_tilted"
   ],
   "note": "C147_transmission, C147_turned_over, C147_plates and C147_reflection at normal incidence; C147_tilted at every angle for aligned layers. Tilted plates with other axes are outside the statement (the code does not solve Maxwell's equations there, C126)."
  },
  {
   "property": "C148",
   "status": "proved",
   "theorems": [
    "Verif.Props.C148_position",
    "Verif.Props.C148_rolled",
    "Verif.Props.C148_symmetric",
    "Verif.Props.C148_maps"
   ],
   "note": "C148_position, C148_rolled (qpoint as in C142: Rolls), C148_symmetric, C148_maps. Without Mueller matrices."
  },
  {
   "property": "C149",
   "status": "proved",
   "theorems": [
    "Verif.Props.C149_order",
    "Verif.Props.C149_parts"
   ],
   "note": "C149_order, C149_parts. Over the reals (floating-point sums depend on the order), for signals without filters: filters see the history of a chunk."
  },
  {
   "property": "C150",
   "status": "proved",
   "theorems": [
    "Verif.Props.C150_best_fit",
    "Verif.Props.C150_scan",
    "Verif.Props.C150_noise",
    "Verif.Props.C150_again"
   ],
   "note": "C150_best_fit, C150_scan, C150_noise, C150_again. solve_map of qpoint by its law (SolveOk), exact arithmetic."
  },
  {
   "property": "C151",
   "status": "proved",
   "theorems": [
    "Verif.Props.C151_gain",
    "Verif.Props.C151_energy",
    "Verif.Props.C151_linear"
   ],
   "note": "C151_gain, C151_energy, C151_linear. Discrete Fourier transforms from their documentation, in exact arithmetic."
  },
  {
   "property": "C152",
   "status": "proved",
   "theorems": [
    "Verif.Props.C152_linear",
    "Verif.Props.C152_solved"
   ],
   "note": "C152_linear, C152_solved. Harmonic transforms by their definition, healpy, qpoint and the solver by their laws, as in C101."
  },
  {
   "property": "C153",
   "status": "proved",
   "theorems": [
    "Verif.Props.C153_sum",
    "Verif.Props.C153_order",
    "Verif.Props.C153_best_fit"
   ],
   "note": "C153_sum, C153_order, C153_best_fit. healpy, qpoint and the solver by their laws."
  },
  {
   "property": "C154",
   "status": "proved",
   "theorems": [
    "Verif.Props.C154_outcome",
    "Verif.Props.C154_refused",
    "Verif.Props.C154_sky",
    "Verif.Props.C154_not_turning",
    "Verif.Props.C154_short"
   ],
   "note": "C154_outcome, C154_refused, C154_sky, C154_not_turning, C154_short. On a cluster the other ranks would wait in the reduction for the one that raised; the model reports the error."
  },
  {
   "property": "C155",
   "status": "proved",
   "theorems": [
    "Verif.Props.C155_covariance",
    "Verif.Props.C155_unbiased",
    "Verif.Props.C155_least_noise",
    "Verif.Props.C155_more",
    "Verif.Props.C155_hits",
    "Verif.Props.C155_balanced",
    "Verif.Props.C155_binned",
    "Verif.Props.C155_condition",
    "Verif.Props.C155_unequal"
   ],
   "note": "C155_covariance, C155_least_noise, C155_more, C155_hits, C155_balanced, C155_condition, C155_unbiased, C155_unequal (a case with noisier samples where the map is not the best estimate); C155_binned states the first of them for calls of bin_tod. The solver of qpoint is trusted to solve regular pixels (SolveOk). Rounding of floating point numbers is not modelled."
  },
  {
   "property": "C156",
   "status": "proved",
   "theorems": [
    "Verif.Props.C156_null",
    "Verif.Props.C156_scans"
   ],
   "note": "C156_scans, C156_null. C156_scans has stepping or fixed plates as C98_recovery, no ground, interpolation, reused spin maps or cross-talk. healpy and qpoint by their laws (ExtOk, PixOk, SolveOk, Agree)."
  }
 ]
}