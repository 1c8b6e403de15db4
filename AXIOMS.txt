'Verif.Props.C01_distribute_array_even_split' depends on axioms: [propext, Classical.choice, Quot.sound]
'Verif.Props.C02_scatter_list_eq_distribute' depends on axioms: [propext, Classical.choice, Quot.sound]
'Verif.Props.C02_scatter_list_even_split' depends on axioms: [propext, Classical.choice, Quot.sound]
'Verif.Props.C03_every_pair_scanned_once' depends on axioms: [propext, Classical.choice, Quot.sound]
'Verif.Props.C03_violation_no_scatter' depends on axioms: [propext, Quot.sound]
'Verif.Props.C04_parallel_pointing_eq_serial' depends on axioms: [propext, Classical.choice, Quot.sound]
'Verif.Props.C05_reduced_maps_rank_independent' depends on axioms: [propext, Classical.choice, Quot.sound]
'Verif.Props.C06_params_consistent' depends on axioms: [propext, Classical.choice, Quot.sound]
'Verif.Props.C06_params_rejected' depends on axioms: [propext, Classical.choice, Quot.sound]
'Verif.Props.C06_params_nonneg_partial' depends on axioms: [propext, Classical.choice, Quot.sound]
'Verif.Props.C06_negative_violation' depends on axioms: [propext, Classical.choice, Quot.sound]
'Verif.Props.C07_partition_mission_tiles' depends on axioms: [propext, Classical.choice, Quot.sound]
'Verif.Props.C07_partition_mission_edge_cases' depends on axioms: [propext, Classical.choice, Quot.sound]
'Verif.Props.C08_subchunks_tile_and_align' depends on axioms: [propext, Classical.choice, Quot.sound]
'Verif.Props.C08_zero_period_raises' does not depend on any axioms
'Verif.Props.C09_boresight_angle_partial' depends on axioms: [propext, Classical.choice, Quot.sound]
'Verif.Props.C09_violation' depends on axioms: [propext, Classical.choice, Quot.sound]
'Verif.Props.C10_el_steps_chunk_independent' depends on axioms: [propext, Classical.choice, Quot.sound]
'Verif.Props.C10_zero_period_raises' depends on axioms: [propext]
'Verif.Props.C11_reset_instr_rot' depends on axioms: [propext]
'Verif.Props.C11_reset_hwp_mod' depends on axioms: [propext, Quot.sound]
'Verif.Props.C11_reset_el_steps' depends on axioms: [propext, Classical.choice, Quot.sound]
'Verif.Props.C12_stepped_hwp_chunk_independent' depends on axioms: [propext, Classical.choice, Quot.sound]
'Verif.Props.C12_stepped_hwp_exact' depends on axioms: [propext, Classical.choice, Quot.sound]
'Verif.Props.C12_default_angles' depends on axioms: [propext, Classical.choice, Quot.sound]
'Verif.Props.C13_continuous_hwp_lag' depends on axioms: [propext, Classical.choice, Quot.sound]
'Verif.Props.C13_continuous_hwp_partial' depends on axioms: [propext, Classical.choice, Quot.sound]
'Verif.Props.C13_violation' depends on axioms: [propext, Classical.choice, Quot.sound]
'Verif.Props.C14_angle_gen_cycles' depends on axioms: [propext, Classical.choice, Quot.sound]
'Verif.Props.C14_angle_gen_empty_raises' depends on axioms: [propext, Quot.sound]
'Verif.Data.C15_ctime' depends on axioms: [propext, Quot.sound]
'Verif.Data.C15_schedule_ctime' depends on axioms: [propext, Classical.choice, Quot.sound]
'Verif.Data.C16_history_exists' depends on axioms: [propext, Classical.choice, Quot.sound]
'Verif.Data.C16_stored' depends on axioms: [propext, Classical.choice, Quot.sound]
'Verif.Data.C16_hwp_hypotheses' depends on axioms: [propext, Quot.sound]
'Verif.Data.C16_sample' depends on axioms: [propext, Classical.choice, Quot.sound]
'Verif.Data.C17_distinct_partial' depends on axioms: [propext, Classical.choice, Quot.sound]
'Verif.Data.C17_violation_collision' depends on axioms: [propext, Classical.choice, Quot.sound]
'Verif.FocalPlane.C17_unique_idx_partial' depends on axioms: [propext, Classical.choice, Quot.sound]
'Verif.FocalPlane.C17_violation_input' depends on axioms: [propext, Classical.choice, Quot.sound]
'Verif.FocalPlane.C17_violation_failed_add' depends on axioms: [propext, Classical.choice, Quot.sound]
'Verif.Props.C18_trunc_alm' depends on axioms: [propext, Classical.choice, Quot.sound]
'Verif.Props.C18_trunc_alm_seq' depends on axioms: [propext, Classical.choice, Quot.sound]
'Verif.Props.C18_trunc_too_large' depends on axioms: [propext, Classical.choice, Quot.sound]
'Verif.Props.C18_trunc_bad_size' depends on axioms: [propext, Classical.choice, Quot.sound]
'Verif.Props.C18_trunc_twice' depends on axioms: [propext, Classical.choice, Quot.sound]
'Verif.Props.C19_layout_bijection' depends on axioms: [propext, Classical.choice, Quot.sound]
'Verif.Props.C19_every_array' depends on axioms: [propext, Classical.choice, Quot.sound]
'Verif.Props.C20_unpol2pol' depends on axioms: [propext, Classical.choice, Quot.sound]
'Verif.Props.C20_monopole_only_raises' depends on axioms: [propext]
'Verif.Props.C21_shift_modes' depends on axioms: [propext, Classical.choice, Quot.sound]
'Verif.Props.C21_shift_zero' depends on axioms: [propext, Classical.choice, Quot.sound]
'Verif.Props.C21_size_mismatch' depends on axioms: [propext]
'Verif.Props.C21_shift_too_large' depends on axioms: [propext, Classical.choice, Quot.sound]
'Verif.Props.C21_shift_even' depends on axioms: [propext, Classical.choice, Quot.sound]
'Verif.Props.C21_shift_back' depends on axioms: [propext, Classical.choice, Quot.sound]
'Verif.Props.C21_shift_eb' depends on axioms: [propext, Classical.choice, Quot.sound]
'Verif.Props.C21_shift_eb_real' depends on axioms: [propext, Classical.choice, Quot.sound]
'Verif.Props.C22_eb_roundtrip' depends on axioms: [propext, Classical.choice, Quot.sound]
'Verif.Props.C22_spin_roundtrip' depends on axioms: [propext, Classical.choice, Quot.sound]
'Verif.Props.C22_non_integer_spin' depends on axioms: [propext, Classical.choice, Quot.sound]
'Verif.Props.C23_representation' depends on axioms: [propext, Classical.choice, Quot.sound]
'Verif.Props.C23_acts_on_spin_vector' depends on axioms: [propext, Classical.choice, Quot.sound]
'Verif.Props.C23_reality' depends on axioms: [propext, Classical.choice, Quot.sound]
'Verif.Props.C24_basis_change_partial' depends on axioms: [propext, Classical.choice, Quot.sound]
'Verif.Props.C24_iquv2ippv_violation' depends on axioms: [propext, Classical.choice, Quot.sound]
'Verif.Props.C25_ideal_hwp_copolar' depends on axioms: [propext, Classical.choice, Quot.sound]
'Verif.Props.C25_ideal_hwp_symmetric' depends on axioms: [propext, Classical.choice, Quot.sound]
'Verif.Props.C25_small_band_limit_rejected' depends on axioms: [propext, Classical.choice, Quot.sound]
'Verif.Props.C25_unknown_mode' depends on axioms: [propext, Classical.choice, Quot.sound]
'Verif.Props.C26_hamilton_product' depends on axioms: [propext, Classical.choice, Quot.sound]
'Verif.Props.C26_assoc' depends on axioms: [propext, Classical.choice, Quot.sound]
'Verif.Props.C26_unit' depends on axioms: [propext, Classical.choice, Quot.sound]
'Verif.Props.C26_norm_mul' depends on axioms: [propext, Classical.choice, Quot.sound]
'Verif.Props.C26_conj' depends on axioms: [propext, Classical.choice, Quot.sound]
'Verif.Props.C26_quat_norm' depends on axioms: [propext, Classical.choice, Quot.sound]
'Verif.Props.C26_norm_of_product' depends on axioms: [propext, Classical.choice, Quot.sound]
'Verif.Props.C26_inverse' depends on axioms: [propext, Classical.choice, Quot.sound]
'Verif.Props.C26_inverse_of_zero' depends on axioms: [propext, Classical.choice, Quot.sound]
'Verif.Props.C26_conj_by' depends on axioms: [propext, Classical.choice, Quot.sound]
'Verif.Props.C26_conj_by_comp' depends on axioms: [propext, Classical.choice, Quot.sound]
'Verif.Props.C26_rotation_z' depends on axioms: [propext, Classical.choice, Quot.sound]
'Verif.Props.C27_cross_talk' depends on axioms: [propext, Quot.sound]
'Verif.Props.C27_cross_talk_swap' depends on axioms: [propext, Quot.sound]
'Verif.Props.C27_cross_talk_undo' depends on axioms: [propext, Quot.sound]
'Verif.Props.C27_cross_talk_size_mismatch' depends on axioms: [propext]
'Verif.Props.C28_tukey_window_partial' depends on axioms: [propext, Classical.choice, Quot.sound]
'Verif.Props.C28_tukey_window_violation' depends on axioms: [propext, Classical.choice, Quot.sound]
'Verif.Props.C29_filter_ft_hwp_partial' depends on axioms: [propext, Classical.choice, Quot.sound]
'Verif.Props.C29_single_mode_violation' depends on axioms: [propext, Classical.choice, Quot.sound]
'Verif.Props.C29_negative_left_violation' depends on axioms: [propext, Classical.choice, Quot.sound]
'Verif.Props.C30_sawtooth_profile' depends on axioms: [propext, Classical.choice, Quot.sound]
'Verif.Props.C30_triangle_profile' depends on axioms: [propext, Classical.choice, Quot.sound]
'Verif.Props.C31_radec2colatlong_partial' depends on axioms: [propext, Classical.choice, Quot.sound]
'Verif.Props.C31_south_pole_violation' depends on axioms: [propext, Classical.choice, Quot.sound]
'Verif.Props.C31_elementwise' depends on axioms: [propext, Classical.choice, Quot.sound]
'Verif.Props.C31_pixels_partial' depends on axioms: [propext, Classical.choice, Quot.sound]
'Verif.Props.C31_violation_twice' depends on axioms: [propext, Classical.choice, Quot.sound]
'Verif.Props.C32_wraparound_2pi_partial' depends on axioms: [propext, Classical.choice, Quot.sound]
'Verif.Props.C32_negative_violation' depends on axioms: [propext, Classical.choice, Quot.sound]
'Verif.Props.C32_wraparound_npi_partial' depends on axioms: [propext, Classical.choice, Quot.sound]
'Verif.Props.C32_npi_multiple_violation' depends on axioms: [propext, Classical.choice, Quot.sound]
'Verif.Props.C32_array_violation' depends on axioms: [propext, Classical.choice, Quot.sound]
'Verif.Props.C33_ctime2DJD_partial' depends on axioms: [propext, Classical.choice, Quot.sound]
'Verif.Props.C33_double_offset_violation' depends on axioms: [propext, Classical.choice, Quot.sound]
'Verif.Props.C34_unit_vector' depends on axioms: [propext, Classical.choice, Quot.sound]
'Verif.Props.C34_opening_angles' depends on axioms: [propext, Classical.choice, Quot.sound]
'Verif.Props.C34_spin_rate' depends on axioms: [propext, Classical.choice, Quot.sound]
'Verif.Props.C34_radec_partial' depends on axioms: [propext, Classical.choice, Quot.sound]
'Verif.Props.C34_pole_violation' depends on axioms: [propext, Classical.choice, Quot.sound]
'Verif.Props.C34_array_violation' depends on axioms: [propext, Classical.choice, Quot.sound]
'Verif.Props.C35_stokes' depends on axioms: [propext, Classical.choice, Quot.sound]
'Verif.Props.C35_multiplicative' depends on axioms: [propext, Classical.choice, Quot.sound]
'Verif.Props.C35_identity' depends on axioms: [propext, Classical.choice, Quot.sound]
'Verif.Props.C35_scaling' depends on axioms: [propext, Classical.choice, Quot.sound]
'Verif.Props.C35_entries_real' depends on axioms: [propext, Classical.choice, Quot.sound]
'Verif.Props.C36_jones_rotation_partial' depends on axioms: [propext, Classical.choice, Quot.sound]
'Verif.Props.C36_jones_rotation_mueller' depends on axioms: [propext, Classical.choice, Quot.sound]
'Verif.Props.C36_mueller_rotation_partial' depends on axioms: [propext, Classical.choice, Quot.sound]
'Verif.Props.C36_mueller_rotation_violation' depends on axioms: [propext, Classical.choice, Quot.sound]
'Verif.Props.C37_zero_thickness' depends on axioms: [propext, Classical.choice, Quot.sound]
'Verif.Props.C37_split_layer' depends on axioms: [propext, Classical.choice, Quot.sound]
'Verif.Props.C37_concatenation' depends on axioms: [propext, Classical.choice, Quot.sound]
'Verif.Props.C37_empty' depends on axioms: [propext, Classical.choice, Quot.sound]
'Verif.Props.C37_exists' depends on axioms: [propext, Classical.choice, Quot.sound]
'Verif.Props.C37_zero_layer' depends on axioms: [propext, Classical.choice, Quot.sound]
'Verif.Props.C37_split' depends on axioms: [propext, Classical.choice, Quot.sound]
'Verif.Beam.C38_bookkeeping' depends on axioms: [propext, Classical.choice, Quot.sound]
'Verif.Beam.C38_creation_order_partial' depends on axioms: [propext, Classical.choice, Quot.sound]
'Verif.Beam.C38_failure' depends on axioms: [propext, Quot.sound]
'Verif.Beam.C38_append' depends on axioms: [propext, Classical.choice, Quot.sound]
'Verif.Beam.C38_violation_reuse' depends on axioms: [propext, Classical.choice, Quot.sound]
'Verif.Beam.C39_cascade' depends on axioms: [propext, Classical.choice, Quot.sound]
'Verif.Beam.C39_ghost_alone' depends on axioms: [propext, Classical.choice, Quot.sound]
'Verif.Timeline.C39_dead_ghosts' depends on axioms: [propext, Classical.choice, Quot.sound]
'Verif.Timeline.C39_dead_beam' depends on axioms: [propext, Classical.choice, Quot.sound]
'Verif.Beam.C40_limits' depends on axioms: [propext, Classical.choice, Quot.sound]
'Verif.Beam.C40_mmax_partial' depends on axioms: [propext, Classical.choice, Quot.sound]
'Verif.Beam.C40_defaults' depends on axioms: [propext, Classical.choice, Quot.sound]
'Verif.Beam.C40_lmax_from_fwhm' depends on axioms: [propext, Classical.choice, Quot.sound]
'Verif.Beam.C40_violation_lmax_none' depends on axioms: [propext, Quot.sound]
'Verif.Beam.C40_violation_reassign' depends on axioms: [propext, Classical.choice, Quot.sound]
'Verif.Beam.C40_violation_negative_mmax' depends on axioms: [propext, Classical.choice, Quot.sound]
'Verif.Beam.C40_violation_lmax_zero' depends on axioms: [propext, Classical.choice, Quot.sound]
'Verif.Beam.C41_inherit_partial' depends on axioms: [propext, Classical.choice, Quot.sound]
'Verif.Beam.C41_limits_partial' depends on axioms: [propext, Classical.choice, Quot.sound]
'Verif.Beam.C41_name' depends on axioms: [propext, Classical.choice, Quot.sound]
'Verif.Beam.C41_violation_not_inherited' depends on axioms: [propext, Classical.choice, Quot.sound]
'Verif.Props.C42_gaussian' depends on axioms: [propext, Classical.choice, Quot.sound]
'Verif.Props.C42_polarized' depends on axioms: [propext, Classical.choice, Quot.sound]
'Verif.Props.C42_proportional_partial' depends on axioms: [propext, Classical.choice, Quot.sound]
'Verif.Props.C42_unpolarized_ignores_amplitude' depends on axioms: [propext, Classical.choice, Quot.sound]
'Verif.Props.C42_violation' depends on axioms: [propext, Classical.choice, Quot.sound]
'Verif.FocalPlane.C43_count_partial' depends on axioms: [propext, Classical.choice, Quot.sound]
'Verif.FocalPlane.C43_remove' depends on axioms: [propext, Quot.sound]
'Verif.FocalPlane.C43_violation_failed_create' depends on axioms: [propext, Classical.choice, Quot.sound]
'Verif.FocalPlane.C43_violation_remove_none' depends on axioms: [propext, Classical.choice, Quot.sound]
'Verif.FocalPlane.C43_violation_input' depends on axioms: [propext, Classical.choice, Quot.sound]
'Verif.FocalPlane.C44_kill_partial' depends on axioms: [propext, Classical.choice, Quot.sound]
'Verif.FocalPlane.C44_violation_empty_slot' depends on axioms: [propext, Classical.choice, Quot.sound]
'Verif.FocalPlane.C45_set' depends on axioms: [propext, Classical.choice, Quot.sound]
'Verif.FocalPlane.C45_set_plain' depends on axioms: [propext, Classical.choice, Quot.sound]
'Verif.FocalPlane.C45_set_dead' depends on axioms: [propext, Classical.choice, Quot.sound]
'Verif.FocalPlane.C45_add_partial' depends on axioms: [propext, Classical.choice, Quot.sound]
'Verif.FocalPlane.C45_violation_add_ghosts' depends on axioms: [propext, Classical.choice, Quot.sound]
'Verif.FocalPlane.C45_violation_random' depends on axioms: [propext, Classical.choice, Quot.sound]
'Verif.Timeline.C46_detector_timeline' depends on axioms: [propext, Classical.choice, Quot.sound]
'Verif.Timeline.C46_order' depends on axioms: [propext, Classical.choice, Quot.sound]
'Verif.Timeline.C47_modulation' depends on axioms: [propext, Classical.choice, Quot.sound]
'Verif.Timeline.C47_modulation_real' depends on axioms: [propext, Classical.choice, Quot.sound]
'Verif.Timeline.C47_reality' depends on axioms: [propext, Classical.choice, Quot.sound]
'Verif.Timeline.C47_negative_rejected' depends on axioms: [propext, Classical.choice, Quot.sound]
'Verif.Props.C48_linear' depends on axioms: [propext, Classical.choice, Quot.sound]
'Verif.Props.C49_terminates' depends on axioms: [propext, Classical.choice, Quot.sound]
'Verif.Props.C49_selection' depends on axioms: [propext, Classical.choice, Quot.sound]
'Verif.Props.C49_elevation_limit' depends on axioms: [propext]
'Verif.Props.C50_sawtooth_profile' depends on axioms: [propext, Classical.choice, Quot.sound]
'Verif.Props.C50_triangle_profile' depends on axioms: [propext, Classical.choice, Quot.sound]
'Verif.Props.C50_pointing_partial' depends on axioms: [propext, Classical.choice, Quot.sound]
'Verif.Props.C50_violation_staring' depends on axioms: [propext, Classical.choice, Quot.sound]
'Verif.Props.C50_violation_short_check' depends on axioms: [propext, Quot.sound]
'Verif.Props.C51_violation_no_effect' depends on axioms: [propext, Quot.sound]
'Verif.Props.C52_contiguous' depends on axioms: [propext, Classical.choice, Quot.sound]
'Verif.Props.C52_lookup' depends on axioms: [propext, Classical.choice, Quot.sound]
'Verif.Props.C52_coverage_partial' depends on axioms: [propext, Classical.choice, Quot.sound]
'Verif.Props.C52_missing_samples' depends on axioms: [propext, Classical.choice, Quot.sound]
'Verif.Props.C52_tiles_partial' depends on axioms: [propext, Classical.choice, Quot.sound]
'Verif.Props.C52_violation_coverage' depends on axioms: [propext, Classical.choice, Quot.sound]
'Verif.Props.C52_violation_empty' depends on axioms: [propext, Classical.choice, Quot.sound]
'Verif.Props.C52_violation_index' depends on axioms: [propext, Classical.choice, Quot.sound]
'Verif.Props.C53_triangle_partial' depends on axioms: [propext, Classical.choice, Quot.sound]
'Verif.Props.C53_triangle_ends' depends on axioms: [propext, Classical.choice, Quot.sound]
'Verif.Props.C53_violation' depends on axioms: [propext, Classical.choice, Quot.sound]
'Verif.Props.C53_pointing_partial' depends on axioms: [propext, Classical.choice, Quot.sound]
'Verif.Props.C54_latitude_partial' depends on axioms: [propext, Classical.choice, Quot.sound]
'Verif.Props.C54_longitude' depends on axioms: [propext, Classical.choice, Quot.sound]
'Verif.Props.C54_violation' depends on axioms: [propext, Classical.choice, Quot.sound]
'Verif.Props.C54_violation_direction' depends on axioms: [propext, Classical.choice, Quot.sound]
'Verif.Props.C55_memmap_partial' depends on axioms: [propext, Classical.choice, Quot.sound]
'Verif.Props.C55_violation_ground' depends on axioms: [propext, Classical.choice, Quot.sound]
'Verif.Spinmaps.C56_sky_detected' depends on axioms: [propext, Classical.choice, Quot.sound]
'Verif.Spinmaps.C56_beam_detected_partial' depends on axioms: [propext, Classical.choice, Quot.sound]
'Verif.Spinmaps.C56_violation' depends on axioms: [propext, Classical.choice, Quot.sound]
'Verif.Spinmaps.C57_lookup_partial' depends on axioms: [propext, Classical.choice, Quot.sound]
'Verif.Spinmaps.C57_reuse_violation' depends on axioms: [propext, Classical.choice, Quot.sound]
'Verif.Props.C58_hwpang_rotating_violation' depends on axioms: [propext, Quot.sound]
'Verif.Props.C58_hwpang_partial' depends on axioms: [propext, Quot.sound]
'Verif.Props.C58_hwpang_zero_violation' depends on axioms: [propext, Classical.choice, Quot.sound]
'Verif.Props.C58_ctime0_partial' depends on axioms: [propext, Quot.sound]
'Verif.Props.C58_ctime0_zero_violation' depends on axioms: [propext, Quot.sound]
'Verif.Props.C58_location_partial' depends on axioms: [propext, Classical.choice, Quot.sound]
'Verif.Props.C58_location_zero_violation' depends on axioms: [propext, Classical.choice, Quot.sound]
'Verif.FocalPlane.C59_reflected_partial' depends on axioms: [propext, Classical.choice, Quot.sound]
'Verif.FocalPlane.C59_crosstalk_partial' depends on axioms: [propext, Classical.choice, Quot.sound]
'Verif.FocalPlane.C59_violation_accumulates' depends on axioms: [propext, Classical.choice, Quot.sound]
'Verif.Props.C60_blm2bl_partial' depends on axioms: [propext, Classical.choice, Quot.sound]
'Verif.Props.C60_wraparound_violation' depends on axioms: [propext]
'Verif.Props.C61_arguments_ignored_violation' depends on axioms: [propext, Classical.choice, Quot.sound]
'Verif.Props.C61_defaults_partial' depends on axioms: [propext, Classical.choice, Quot.sound]
'Verif.Props.C61_angles_matter' depends on axioms: [propext, Classical.choice, Quot.sound]
'Verif.Props.C62_psi_partial' depends on axioms: [propext, Classical.choice, Quot.sound]
'Verif.Props.C63_transparent' depends on axioms: [propext, Classical.choice, Quot.sound]
'Verif.Props.C64_models' depends on axioms: [propext, Classical.choice, Quot.sound]
'Verif.Props.C64_design' depends on axioms: [propext, Classical.choice, Quot.sound]
'Verif.Props.C64_transfer_exists' depends on axioms: [propext, Classical.choice, Quot.sound]
'Verif.Props.C64_compute_mueller' depends on axioms: [propext, Classical.choice, Quot.sound]
'Verif.Props.C64_stack_builder' depends on axioms: [propext, Classical.choice, Quot.sound]
'Verif.Props.C65_energy' depends on axioms: [propext, Classical.choice, Quot.sound]
'Verif.Props.C66_rotation' depends on axioms: [propext, Classical.choice, Quot.sound]
'Verif.Data.C67_rescan_after_reset_partial' depends on axioms: [propext, Classical.choice, Quot.sound]
'Verif.Data.C67_violation' depends on axioms: [propext, Classical.choice, Quot.sound]
'Verif.Props.C68_aligned_partial' depends on axioms: [propext, Classical.choice, Quot.sound]
'Verif.Props.C68_violation_generic' depends on axioms: [propext, Classical.choice, Quot.sound]
'Verif.Props.C68_strictly_az' depends on axioms: [propext, Classical.choice, Quot.sound]
'Verif.Props.C68_violation_strictly_az' depends on axioms: [propext, Classical.choice, Quot.sound]
'Verif.FocalPlane.C69_grid' depends on axioms: [propext, Classical.choice, Quot.sound]
'Verif.FocalPlane.C69_detectors' depends on axioms: [propext, Classical.choice, Quot.sound]
'Verif.FocalPlane.C69_succeeds' depends on axioms: [propext, Classical.choice, Quot.sound]
'Verif.Spinmaps.C70_ground_beam_partial' depends on axioms: [propext, Classical.choice, Quot.sound]
'Verif.Spinmaps.C70_ground_beam_violation' depends on axioms: [propext, Classical.choice, Quot.sound]
'Verif.Spinmaps.C70_ground_coefficients_partial' depends on axioms: [propext, Classical.choice, Quot.sound]
'Verif.Spinmaps.C70_ground_coefficients_violation' depends on axioms: [propext, Classical.choice, Quot.sound]
'Verif.Timeline.C70_ground_actual' depends on axioms: [propext, Classical.choice, Quot.sound]
'Verif.Timeline.C70_ground_partial' depends on axioms: [propext, Classical.choice, Quot.sound]
'Verif.Timeline.C70_ghost_violation' depends on axioms: [propext, Classical.choice, Quot.sound]
'Verif.Timeline.C70_save_point_violation' depends on axioms: [propext, Classical.choice, Quot.sound]
'Verif.Props.C71_convolution' depends on axioms: [propext, Classical.choice, Quot.sound]
'Verif.Props.C72_identity_partial' depends on axioms: [propext, Classical.choice, Quot.sound]
'Verif.Props.C72_violation' depends on axioms: [propext, Classical.choice, Quot.sound]
'Verif.Props.C73_plate_partial' depends on axioms: [propext, Classical.choice, Quot.sound]
'Verif.Props.C73_violation' depends on axioms: [propext, Classical.choice, Quot.sound]
'Verif.Props.C73_angles_partial' depends on axioms: [propext, Classical.choice, Quot.sound]
'Verif.Props.C74_symmetric' depends on axioms: [propext, Classical.choice, Quot.sound]
'Verif.Props.C75_ideal' depends on axioms: [propext, Classical.choice, Quot.sound]
'Verif.Props.C76_gaussian' depends on axioms: [propext, Classical.choice, Quot.sound]
'Verif.Props.C76_symmetric' depends on axioms: [propext, Classical.choice, Quot.sound]
'Verif.Props.C76_gauss_blm' depends on axioms: [propext, Classical.choice, Quot.sound]
'Verif.Props.C77_copolar_partial' depends on axioms: [propext, Classical.choice, Quot.sound]
'Verif.Props.C77_three_rows' depends on axioms: [propext, Classical.choice, Quot.sound]
'Verif.Props.C77_violation' depends on axioms: [propext, Classical.choice, Quot.sound]
'Verif.Props.C78_scale_partial' depends on axioms: [propext, Classical.choice, Quot.sound]
'Verif.Props.C78_unchanged_partial' depends on axioms: [propext, Classical.choice, Quot.sound]
'Verif.Props.C78_normalize_partial' depends on axioms: [propext, Classical.choice, Quot.sound]
'Verif.Props.C78_violation' depends on axioms: [propext, Classical.choice, Quot.sound]
'Verif.Props.C79_pol_beam' depends on axioms: [propext, Classical.choice, Quot.sound]
'Verif.Props.C79_ratio_partial' depends on axioms: [propext, Classical.choice, Quot.sound]
'Verif.Props.C79_violation' depends on axioms: [propext, Classical.choice, Quot.sound]
'Verif.Props.C80_polarized_partial' depends on axioms: [propext, Classical.choice, Quot.sound]
'Verif.Props.C80_copolar' depends on axioms: [propext, Classical.choice, Quot.sound]
'Verif.Props.C80_violation' depends on axioms: [propext, Classical.choice, Quot.sound]
'Verif.Props.C81_npy_partial' depends on axioms: [propext, Classical.choice, Quot.sound]
'Verif.Props.C81_violation' depends on axioms: [propext, Classical.choice, Quot.sound]
'Verif.Props.C82_whole_scans_partial' depends on axioms: [propext, Classical.choice, Quot.sound]
'Verif.Props.C82_violation' depends on axioms: [propext, Classical.choice, Quot.sound]
'Verif.Props.C83_parse_partial' depends on axioms: [propext, Classical.choice, Quot.sound]
'Verif.Props.C83_violation' depends on axioms: [propext, Classical.choice, Quot.sound]
'Verif.Props.C84_whole_periods_partial' depends on axioms: [propext, Classical.choice, Quot.sound]
'Verif.Props.C84_violation' depends on axioms: [propext, Classical.choice, Quot.sound]
'Verif.Props.C85_azel_partial' depends on axioms: [propext, Classical.choice, Quot.sound]
'Verif.Props.C85_violation' depends on axioms: [propext, Classical.choice, Quot.sound]
'Verif.Props.C85_jitter' depends on axioms: [propext, Classical.choice, Quot.sound]
'Verif.Props.C85_no_jitter' depends on axioms: [propext, Classical.choice, Quot.sound]
'Verif.Props.C85_violation_jitter' depends on axioms: [propext, Classical.choice, Quot.sound]
'Verif.Props.C86_binning' depends on axioms: [propext, Classical.choice, Quot.sound]
'Verif.Props.C86_order' depends on axioms: [propext, Classical.choice, Quot.sound]
'Verif.Props.C86_cut' depends on axioms: [propext, Classical.choice, Quot.sound]
'Verif.Props.C87_recovery' depends on axioms: [propext, Classical.choice, Quot.sound]
'Verif.Props.C88_hits' depends on axioms: [propext, Classical.choice, Quot.sound]
'Verif.Props.C88_regular' depends on axioms: [propext, Classical.choice, Quot.sound]
'Verif.Props.C89_preview' depends on axioms: [propext, Classical.choice, Quot.sound]
'Verif.Props.C90_flagged_partial' depends on axioms: [propext, Classical.choice, Quot.sound]
'Verif.Props.C90_all_flagged' depends on axioms: [propext, Classical.choice, Quot.sound]
'Verif.Props.C90_flag_false' depends on axioms: [propext, Classical.choice, Quot.sound]
'Verif.Props.C90_violation' depends on axioms: [propext, Classical.choice, Quot.sound]
'Verif.Props.C91_band_partial' depends on axioms: [propext, Classical.choice, Quot.sound]
'Verif.Props.C91_linear' depends on axioms: [propext, Classical.choice, Quot.sound]
'Verif.Props.C91_sinusoid' depends on axioms: [propext, Classical.choice, Quot.sound]
'Verif.Props.C91_violation' depends on axioms: [propext, Classical.choice, Quot.sound]
'Verif.Props.C91_backwards_violation' depends on axioms: [propext, Classical.choice, Quot.sound]
'Verif.Props.C91_short_violation' depends on axioms: [propext, Classical.choice, Quot.sound]
'Verif.Props.C92_butterworth_partial' depends on axioms: [propext, Classical.choice, Quot.sound]
'Verif.Props.C92_profile' depends on axioms: [propext, Classical.choice, Quot.sound]
'Verif.Props.C92_violation' depends on axioms: [propext, Classical.choice, Quot.sound]
'Verif.Props.C92_mean' depends on axioms: [propext, Classical.choice, Quot.sound]
'Verif.Props.C93_maps' depends on axioms: [propext, Classical.choice, Quot.sound]
'Verif.Props.C93_offset' depends on axioms: [propext, Classical.choice, Quot.sound]
'Verif.Props.C93_hits' depends on axioms: [propext, Classical.choice, Quot.sound]
'Verif.Props.C93_set_filter_dict' depends on axioms: [propext, Classical.choice, Quot.sound]
'Verif.Props.C93_refused' depends on axioms: [propext, Classical.choice, Quot.sound]
'Verif.Beam.C94_truth' depends on axioms: [propext, Classical.choice, Quot.sound]
'Verif.Beam.C94_assign' depends on axioms: [propext, Quot.sound]
'Verif.Beam.C94_kept' depends on axioms: [propext, Classical.choice, Quot.sound]
'Verif.Beam.C94_created' depends on axioms: [propext, Classical.choice, Quot.sound]
'Verif.Beam.C95_cached' depends on axioms: [propext, Classical.choice, Quot.sound]
'Verif.Beam.C95_deleted_partial' depends on axioms: [propext, Quot.sound]
'Verif.Beam.C95_renewed' depends on axioms: [propext, Quot.sound]
'Verif.Beam.C95_reused' depends on axioms: [propext, Quot.sound]
'Verif.Beam.C95_violation_ghost' depends on axioms: [propext, Classical.choice, Quot.sound]
'Verif.Props.C96_maps' depends on axioms: [propext, Classical.choice, Quot.sound]
'Verif.Props.C96_maps_turning' depends on axioms: [propext, Classical.choice, Quot.sound]
'Verif.Props.C96_maps_static' depends on axioms: [propext, Classical.choice, Quot.sound]
'Verif.Props.C96_generic' depends on axioms: [propext, Classical.choice, Quot.sound]
'Verif.Props.C96_ranks' depends on axioms: [propext, Classical.choice, Quot.sound]
'Verif.Props.C96_chunks' depends on axioms: [propext, Classical.choice, Quot.sound]
'Verif.Props.C96_hits' depends on axioms: [propext, Classical.choice, Quot.sound]
'Verif.Props.C97_preview' depends on axioms: [propext, Classical.choice, Quot.sound]
'Verif.Props.C98_recovery' depends on axioms: [propext, Classical.choice, Quot.sound]
'Verif.Props.C98_recovery_static' depends on axioms: [propext, Classical.choice, Quot.sound]
'Verif.Props.C98_recovery_turning' depends on axioms: [propext, Classical.choice, Quot.sound]
'Verif.Props.C99_again_partial' depends on axioms: [propext, Classical.choice, Quot.sound]
'Verif.Props.C99_again_violation' depends on axioms: [propext, Classical.choice, Quot.sound]
'Verif.Props.C99_unpaired_violation' depends on axioms: [propext, Classical.choice, Quot.sound]
'Verif.Props.C99_second_beam_violation' depends on axioms: [propext, Classical.choice, Quot.sound]
'Verif.Props.C99_ground_stays' depends on axioms: [propext, Classical.choice, Quot.sound]
'Verif.Props.C99_ground_violation' depends on axioms: [propext, Classical.choice, Quot.sound]
'Verif.Props.C100_sum' depends on axioms: [propext, Classical.choice, Quot.sound]
'Verif.Props.C100_order' depends on axioms: [propext, Classical.choice, Quot.sound]
'Verif.Props.C100_dead' depends on axioms: [propext, Classical.choice, Quot.sound]
'Verif.Props.C100_kill' depends on axioms: [propext, Classical.choice, Quot.sound]
'Verif.Props.C101_linear' depends on axioms: [propext, Classical.choice, Quot.sound]
'Verif.Props.C101_solved' depends on axioms: [propext, Classical.choice, Quot.sound]
'Verif.Timeline.C102_returned' depends on axioms: [propext, Classical.choice, Quot.sound]
'Verif.Timeline.C103_consistent' depends on axioms: [propext, Classical.choice, Quot.sound]
'Verif.Timeline.C103_refused' depends on axioms: [propext, Classical.choice, Quot.sound]
'Verif.Timeline.C103_missing' depends on axioms: [propext, Classical.choice, Quot.sound]
'Verif.Props.C104_average_partial' depends on axioms: [propext, Classical.choice, Quot.sound]
'Verif.Props.C104_refused' depends on axioms: [propext, Classical.choice, Quot.sound]
'Verif.Props.C104_between' depends on axioms: [propext, Classical.choice, Quot.sound]
'Verif.Props.C104_scale' depends on axioms: [propext, Classical.choice, Quot.sound]
'Verif.Props.C104_passive' depends on axioms: [propext, Classical.choice, Quot.sound]
'Verif.Props.C104_violation_upper_edge' depends on axioms: [propext, Classical.choice, Quot.sound]
'Verif.Props.C104_violation_passband_units' depends on axioms: [propext, Classical.choice, Quot.sound]
'Verif.Props.C105_reuse_existing' depends on axioms: [propext, Classical.choice, Quot.sound]
'Verif.Props.C105_reuse_first' depends on axioms: [propext, Classical.choice, Quot.sound]
'Verif.Props.C105_reuse_same' depends on axioms: [propext, Classical.choice, Quot.sound]
'Verif.Props.C105_reuse_stored_partial' depends on axioms: [propext, Classical.choice, Quot.sound]
'Verif.Props.C105_stored_partial' depends on axioms: [propext, Classical.choice, Quot.sound]
'Verif.Props.C105_stored_turning_partial' depends on axioms: [propext, Classical.choice, Quot.sound]
'Verif.Props.C105_maps_unchanged' depends on axioms: [propext, Classical.choice, Quot.sound]
'Verif.Props.C105_binning' depends on axioms: [propext, Classical.choice, Quot.sound]
'Verif.Props.C105_unbinned_partial' depends on axioms: [propext, Classical.choice, Quot.sound]
'Verif.Props.C105_arguments' depends on axioms: [propext, Classical.choice, Quot.sound]
'Verif.Props.C105_ground_violation' depends on axioms: [propext, Classical.choice, Quot.sound]
'Verif.Props.C106_ends' depends on axioms: [propext, Classical.choice, Quot.sound]
'Verif.Props.C106_maps' depends on axioms: [propext, Classical.choice, Quot.sound]
'Verif.Props.C106_recovery' depends on axioms: [propext, Classical.choice, Quot.sound]
'Verif.Props.C106_hang_violation' depends on axioms: [propext, Classical.choice, Quot.sound]
'Verif.Props.C107_external' depends on axioms: [propext, Classical.choice, Quot.sound]
'Verif.Props.C107_strictly_az' depends on axioms: [propext, Classical.choice, Quot.sound]
'Verif.Props.C107_schedule_partial' depends on axioms: [propext, Classical.choice, Quot.sound]
'Verif.Props.C107_satellite_partial' depends on axioms: [propext, Classical.choice, Quot.sound]
'Verif.Props.C107_satellite_violation' depends on axioms: [propext, Classical.choice, Quot.sound]
'Verif.Props.C107_l2_violation' depends on axioms: [propext, Classical.choice, Quot.sound]
'Verif.Props.C107_l2_single_partial' depends on axioms: [propext, Classical.choice, Quot.sound]
'Verif.Props.C107_ground_violation' depends on axioms: [propext, Classical.choice, Quot.sound]
'Verif.Props.C108_result' depends on axioms: [propext, Classical.choice, Quot.sound]
'Verif.Props.C108_settings' depends on axioms: [propext, Classical.choice, Quot.sound]
'Verif.Props.C108_recover' depends on axioms: [propext, Classical.choice, Quot.sound]
'Verif.Props.C108_generic' depends on axioms: [propext, Classical.choice, Quot.sound]
'Verif.Props.C108_external' depends on axioms: [propext, Classical.choice, Quot.sound]
'Verif.Props.C108_strictly_az' depends on axioms: [propext, Classical.choice, Quot.sound]
'Verif.Props.C108_satellite_violation' depends on axioms: [propext, Classical.choice, Quot.sound]
'Verif.Props.C108_leftover_violation' depends on axioms: [propext, Classical.choice, Quot.sound]
'Verif.Props.C109_existing' depends on axioms: [propext, Classical.choice, Quot.sound]
'Verif.Props.C109_first' depends on axioms: [propext, Classical.choice, Quot.sound]
'Verif.Props.C109_same' depends on axioms: [propext, Classical.choice, Quot.sound]
'Verif.Props.C109_one_each' depends on axioms: [propext, Classical.choice, Quot.sound]
'Verif.Props.C109_new_sky' depends on axioms: [propext, Classical.choice, Quot.sound]
'Verif.Props.C109_ranks_violation' depends on axioms: [propext, Classical.choice, Quot.sound]
'Verif.Props.C110_actual' depends on axioms: [propext, Classical.choice, Quot.sound]
'Verif.Props.C110_sky_and_ground_partial' depends on axioms: [propext, Classical.choice, Quot.sound]
'Verif.Props.C110_adds_partial' depends on axioms: [propext, Classical.choice, Quot.sound]
'Verif.Props.C110_ranks' depends on axioms: [propext, Classical.choice, Quot.sound]
'Verif.Props.C110_generic' depends on axioms: [propext, Classical.choice, Quot.sound]
'Verif.Props.C110_preview_violation' depends on axioms: [propext, Classical.choice, Quot.sound]
'Verif.Props.C111_rounding' depends on axioms: [propext, Classical.choice, Quot.sound]
'Verif.Props.C111_ties' depends on axioms: [propext, Classical.choice, Quot.sound]
'Verif.Props.C111_ceil' depends on axioms: [propext, Classical.choice, Quot.sound]
'Verif.Props.C111_partition' depends on axioms: [propext, Classical.choice, Quot.sound]
'Verif.Props.C111_violation' depends on axioms: [propext, Classical.choice, Quot.sound]
'Verif.Props.C112_exact' depends on axioms: [propext, Classical.choice, Quot.sound]
'Verif.Props.C112_within' depends on axioms: [propext, Classical.choice, Quot.sound]
'Verif.Props.C112_again_partial' depends on axioms: [propext, Classical.choice, Quot.sound]
'Verif.Props.C112_again_exact' depends on axioms: [propext, Classical.choice, Quot.sound]
'Verif.Props.C112_violation' depends on axioms: [propext, Classical.choice, Quot.sound]
'Verif.Props.C112_step_violation' depends on axioms: [propext, Classical.choice, Quot.sound]
'Verif.Props.C113_chunks' depends on axioms: [propext, Classical.choice, Quot.sound]
'Verif.Props.C113_monotone' depends on axioms: [propext, Classical.choice, Quot.sound]
'Verif.Props.C113_accuracy' depends on axioms: [propext, Classical.choice, Quot.sound]
'Verif.Props.C113_increasing_partial' depends on axioms: [propext, Classical.choice, Quot.sound]
'Verif.Props.C113_violation' depends on axioms: [propext, Classical.choice, Quot.sound]
'Verif.Props.C114_hits' depends on axioms: [propext, Classical.choice, Quot.sound]
'Verif.Props.C114_order_partial' depends on axioms: [propext, Classical.choice, Quot.sound]
'Verif.Props.C114_violation' depends on axioms: [propext, Classical.choice, Quot.sound]
'Verif.Props.C115_settings' depends on axioms: [propext, Classical.choice, Quot.sound]
'Verif.Props.C115_recover' depends on axioms: [propext, Classical.choice, Quot.sound]
'Verif.Props.C115_recover_sky' depends on axioms: [propext, Classical.choice, Quot.sound]
'Verif.Props.C115_generic' depends on axioms: [propext, Classical.choice, Quot.sound]
'Verif.Props.C115_kept_violation' depends on axioms: [propext, Classical.choice, Quot.sound]
'Verif.Props.C116_any' depends on axioms: [propext, Classical.choice, Quot.sound]
'Verif.Props.C116_backwards_violation' depends on axioms: [propext, Classical.choice, Quot.sound]
'Verif.Props.C116_ground' depends on axioms: [propext, Classical.choice, Quot.sound]
'Verif.Props.C116_ground_turning_partial' depends on axioms: [propext, Classical.choice, Quot.sound]
'Verif.Props.C116_ground_ranks' depends on axioms: [propext, Classical.choice, Quot.sound]
'Verif.Props.C116_ground_lost' depends on axioms: [propext, Classical.choice, Quot.sound]
'Verif.Props.C116_maps' depends on axioms: [propext, Classical.choice, Quot.sound]
'Verif.Props.C116_maps_turning_partial' depends on axioms: [propext, Classical.choice, Quot.sound]
'Verif.Props.C116_off' depends on axioms: [propext, Classical.choice, Quot.sound]
'Verif.Props.C116_hits' depends on axioms: [propext, Classical.choice, Quot.sound]
'Verif.Props.C116_ranks' depends on axioms: [propext, Classical.choice, Quot.sound]
'Verif.Props.C116_cutoff_zero_violation' depends on axioms: [propext, Classical.choice, Quot.sound]
'Verif.Props.C116_offset' depends on axioms: [propext, Classical.choice, Quot.sound]
'Verif.Props.C116_chunks_violation' depends on axioms: [propext, Classical.choice, Quot.sound]
'Verif.Beam.C117_family' depends on axioms: [propext, Classical.choice, Quot.sound]
'Verif.Beam.C117_maps' depends on axioms: [propext, Classical.choice, Quot.sound]
'Verif.Beam.C117_again_partial' depends on axioms: [propext, Classical.choice, Quot.sound]
'Verif.Beam.C117_settles' depends on axioms: [propext, Classical.choice, Quot.sound]
'Verif.Beam.C117_fits_violation' depends on axioms: [propext, Classical.choice, Quot.sound]
'Verif.Beam.C117_handmade_violation' depends on axioms: [propext, Classical.choice, Quot.sound]
'Verif.Beam.C117_unused_violation' depends on axioms: [propext, Classical.choice, Quot.sound]
'Verif.Props.C117_blind_violation' depends on axioms: [propext, Classical.choice, Quot.sound]
'Verif.Props.C117_polarization_violation' depends on axioms: [propext, Classical.choice, Quot.sound]
'Verif.Props.C118_ground' depends on axioms: [propext, Classical.choice, Quot.sound]
'Verif.Props.C118_ground_adds_partial' depends on axioms: [propext, Classical.choice, Quot.sound]
'Verif.Props.C118_kept' depends on axioms: [propext, Classical.choice, Quot.sound]
'Verif.Props.C118_preview' depends on axioms: [propext, Classical.choice, Quot.sound]
'Verif.Props.C118_reuse' depends on axioms: [propext, Classical.choice, Quot.sound]
'Verif.Props.C118_maps' depends on axioms: [propext, Classical.choice, Quot.sound]
'Verif.Props.C118_apart' depends on axioms: [propext, Classical.choice, Quot.sound]
'Verif.Props.C118_again_partial' depends on axioms: [propext, Classical.choice, Quot.sound]
'Verif.Props.C118_plates_partial' depends on axioms: [propext, Classical.choice, Quot.sound]
'Verif.Props.C118_convolution' depends on axioms: [propext, Classical.choice, Quot.sound]
'Verif.Props.C118_second_violation' depends on axioms: [propext, Classical.choice, Quot.sound]
'Verif.Props.C118_fits_violation' depends on axioms: [propext, Classical.choice, Quot.sound]
'Verif.Props.C119_objects' depends on axioms: [propext, Classical.choice, Quot.sound]
'Verif.Props.C119_gaussian' depends on axioms: [propext, Classical.choice, Quot.sound]
'Verif.Props.C120_used' depends on axioms: [propext, Quot.sound]
'Verif.Props.C120_serial' depends on axioms: [propext, Quot.sound]
'Verif.Props.C120_world' depends on axioms: [propext, Classical.choice, Quot.sound]
'Verif.Props.C120_communicator_partial' depends on axioms: [propext, Classical.choice, Quot.sound]
'Verif.Props.C120_collective' depends on axioms: [propext, Classical.choice, Quot.sound]
'Verif.Props.C120_violation_comm_ignored' depends on axioms: [propext, Classical.choice, Quot.sound]
'Verif.Props.C120_violation_left_out' does not depend on any axioms
'Verif.Props.C121_shared_partial' depends on axioms: [propext, Classical.choice, Quot.sound]
'Verif.Props.C121_kill' depends on axioms: [propext, Classical.choice, Quot.sound]
'Verif.Props.C121_split' depends on axioms: [propext, Classical.choice, Quot.sound]
'Verif.Props.C121_violation_scan' depends on axioms: [propext, Classical.choice, Quot.sound]
'Verif.Props.C121_violation_passes' depends on axioms: [propext]
'Verif.Props.C121_violation_kill' depends on axioms: [propext, Quot.sound]
'Verif.Props.C121_violation_idx' depends on axioms: [propext]
'Verif.Props.C122_ranks' depends on axioms: [propext, Classical.choice, Quot.sound]
'Verif.Props.C122_serial' depends on axioms: [propext, Classical.choice, Quot.sound]
'Verif.Props.C122_two' depends on axioms: [propext, Classical.choice, Quot.sound]
'Verif.Props.C122_balanced' depends on axioms: [propext, Classical.choice, Quot.sound]
'Verif.Props.C123_plots_partial' depends on axioms: [propext, Classical.choice, Quot.sound]
'Verif.Props.C123_distinct' depends on axioms: [propext, Classical.choice, Quot.sound]
'Verif.Props.C123_refused' depends on axioms: [propext, Classical.choice, Quot.sound]
'Verif.Props.C123_round' depends on axioms: [propext, Classical.choice, Quot.sound]
'Verif.Props.C123_violation_dpi' depends on axioms: [propext, Classical.choice, Quot.sound]
'Verif.Props.C123_violation_scalar' depends on axioms: [propext, Classical.choice, Quot.sound]
'Verif.Props.C123_violation_fourth' depends on axioms: [propext, Classical.choice, Quot.sound]
'Verif.Props.C123_violation_clash' depends on axioms: [propext, Classical.choice, Quot.sound]
'Verif.Props.C123_violation_four_scalar' depends on axioms: [propext, Classical.choice, Quot.sound]
'Verif.Props.C123_violation_carried' depends on axioms: [propext, Classical.choice, Quot.sound]
'Verif.Props.C123_violation_zero' depends on axioms: [propext, Classical.choice, Quot.sound]
'Verif.Props.C123_violation_clipped' depends on axioms: [propext, Classical.choice, Quot.sound]
'Verif.Props.C123_violation_function' depends on axioms: [propext, Classical.choice, Quot.sound]
'Verif.FocalPlane.C124_table_partial' depends on axioms: [propext, Classical.choice, Quot.sound]
'Verif.FocalPlane.C124_succeeds' depends on axioms: [propext, Classical.choice, Quot.sound]
'Verif.FocalPlane.C124_violation_replace' depends on axioms: [propext, Quot.sound]
'Verif.FocalPlane.C124_violation_ignored' depends on axioms: [propext, Quot.sound]
'Verif.FocalPlane.C124_violation_again' depends on axioms: [propext, Classical.choice, Quot.sound]
'Verif.Props.C125_files' depends on axioms: [propext, Classical.choice, Quot.sound]
'Verif.Props.C125_no_files' depends on axioms: [propext, Classical.choice, Quot.sound]
'Verif.Props.C125_missing' depends on axioms: [propext, Classical.choice, Quot.sound]
'Verif.Props.C125_pairs_partial' depends on axioms: [propext, Classical.choice, Quot.sound]
'Verif.Props.C125_history' depends on axioms: [propext, Classical.choice, Quot.sound]
'Verif.Props.C125_violation_silent' depends on axioms: [propext, Classical.choice, Quot.sound]
'Verif.Props.C125_violation_empty' depends on axioms: [propext, Classical.choice, Quot.sound]
'Verif.Props.C125_violation_twice' depends on axioms: [propext, Classical.choice, Quot.sound]
'Verif.Props.C125_violation_other' depends on axioms: [propext, Classical.choice, Quot.sound]
'Verif.Props.C126_isotropic_partial' depends on axioms: [propext, Classical.choice, Quot.sound]
'Verif.Props.C126_perpendicular_partial' depends on axioms: [propext, Classical.choice, Quot.sound]
'Verif.Props.C126_normal_partial' depends on axioms: [propext, Classical.choice, Quot.sound]
'Verif.Props.C126_violation_oblique' depends on axioms: [propext, Classical.choice, Quot.sound]
'Verif.Props.C126_violation_lossy' depends on axioms: [propext, Classical.choice, Quot.sound]
'Verif.Props.C127_films' depends on axioms: [propext, Classical.choice, Quot.sound]
'Verif.Props.C127_energy' depends on axioms: [propext, Classical.choice, Quot.sound]
'Verif.Props.C127_fresnel' depends on axioms: [propext, Classical.choice, Quot.sound]
'Verif.Props.C127_brewster' depends on axioms: [propext, Classical.choice, Quot.sound]
'Verif.Props.C127_coating' depends on axioms: [propext, Classical.choice, Quot.sound]
'Verif.Props.C127_halfwave' depends on axioms: [propext, Classical.choice, Quot.sound]
'Verif.Props.C128_mueller' depends on axioms: [propext, Classical.choice, Quot.sound]
'Verif.Props.C128_stack' depends on axioms: [propext, Classical.choice, Quot.sound]
'Verif.Props.C128_plate' depends on axioms: [propext, Classical.choice, Quot.sound]
'Verif.Props.C128_band' depends on axioms: [propext, Classical.choice, Quot.sound]
'Verif.Props.C128_energy' depends on axioms: [propext, Classical.choice, Quot.sound]
'Verif.Props.C128_rotation_partial' depends on axioms: [propext, Classical.choice, Quot.sound]
'Verif.Props.C128_violation_rotation' depends on axioms: [propext, Classical.choice, Quot.sound]
'Verif.Props.C129_any' depends on axioms: [propext, Classical.choice, Quot.sound]
'Verif.Props.C129_faithful' depends on axioms: [propext, Classical.choice, Quot.sound]
'Verif.Props.C129_right_partial' depends on axioms: [propext, Classical.choice, Quot.sound]
'Verif.Props.C129_wrong' depends on axioms: [propext, Classical.choice, Quot.sound]
'Verif.Props.C129_violation' depends on axioms: [propext, Classical.choice, Quot.sound]
'Verif.Props.C130_matrix' depends on axioms: [propext, Classical.choice, Quot.sound]
'Verif.Props.C130_frame' depends on axioms: [propext, Classical.choice, Quot.sound]
'Verif.Props.C130_history' depends on axioms: [propext, Classical.choice, Quot.sound]
'Verif.Props.C130_presets' depends on axioms: [propext, Classical.choice, Quot.sound]
'Verif.Props.C131_matrix' depends on axioms: [propext, Classical.choice, Quot.sound]
'Verif.Props.C131_passive' depends on axioms: [propext, Classical.choice, Quot.sound]
'Verif.Props.C131_angles' depends on axioms: [propext, Classical.choice, Quot.sound]
'Verif.Props.C131_scan_partial' depends on axioms: [propext, Classical.choice, Quot.sound]
'Verif.Props.C131_symmetric_partial' depends on axioms: [propext, Classical.choice, Quot.sound]
'Verif.Props.C131_wrong' depends on axioms: [propext, Classical.choice, Quot.sound]
'Verif.Props.C131_presets' depends on axioms: [propext, Classical.choice, Quot.sound]
'Verif.Props.C131_violation' depends on axioms: [propext, Classical.choice, Quot.sound]
'Verif.Props.C132_same_partial' depends on axioms: [propext, Classical.choice, Quot.sound]
'Verif.Props.C132_invalid' depends on axioms: [propext, Classical.choice, Quot.sound]
'Verif.Props.C132_violation' depends on axioms: [propext, Classical.choice, Quot.sound]
'Verif.Props.C132_empty_violation' depends on axioms: [propext, Classical.choice, Quot.sound]
'Verif.Props.C133_ends' depends on axioms: [propext, Classical.choice, Quot.sound]
'Verif.Props.C133_maps' depends on axioms: [propext, Classical.choice, Quot.sound]
'Verif.Props.C133_l2_violation' depends on axioms: [propext, Classical.choice, Quot.sound]
'Verif.Props.C133_l2_fails_violation' depends on axioms: [propext, Classical.choice, Quot.sound]
error(lean.unknownIdentifier): Unknown constant `C133_l2_one_each_partial`
'Verif.Props.C134_twins' depends on axioms: [propext, Classical.choice, Quot.sound]
'Verif.Props.C134_single' depends on axioms: [propext, Classical.choice, Quot.sound]
'Verif.Props.C134_gaussian' depends on axioms: [propext, Classical.choice, Quot.sound]
'Verif.Props.C135_objects' depends on axioms: [propext, Classical.choice, Quot.sound]
'Verif.Props.C135_gaussian' depends on axioms: [propext, Classical.choice, Quot.sound]
'Verif.Props.C135_layers' depends on axioms: [propext, Classical.choice, Quot.sound]
'Verif.Props.C136_agree' depends on axioms: [propext, Classical.choice, Quot.sound]
'Verif.Props.C136_seeded' depends on axioms: [propext, Classical.choice, Quot.sound]
'Verif.Props.C136_none' depends on axioms: [propext, Classical.choice, Quot.sound]
'Verif.Props.C136_scan_partial' depends on axioms: [propext, Classical.choice, Quot.sound]
'Verif.Props.C137_linear' depends on axioms: [propext, Classical.choice, Quot.sound]
'Verif.Props.C137_gain' depends on axioms: [propext, Classical.choice, Quot.sound]
'Verif.Props.C137_ghosts' depends on axioms: [propext, Classical.choice, Quot.sound]
'Verif.Props.C138_pairs' depends on axioms: [propext, Classical.choice, Quot.sound]
'Verif.Props.C139_spinmaps' depends on axioms: [propext, Classical.choice, Quot.sound]
'Verif.Props.C139_scans' depends on axioms: [propext, Classical.choice, Quot.sound]
'Verif.Props.C140_rebinned' depends on axioms: [propext, Classical.choice, Quot.sound]
'Verif.Props.C141_timelines' depends on axioms: [propext, Classical.choice, Quot.sound]
'Verif.Props.C141_map' depends on axioms: [propext, Classical.choice, Quot.sound]
'Verif.Props.C142_turned' depends on axioms: [propext, Classical.choice, Quot.sound]
'Verif.Props.C142_full_turns' depends on axioms: [propext, Classical.choice, Quot.sound]
'Verif.Props.C142_in_boresight' depends on axioms: [propext, Classical.choice, Quot.sound]
'Verif.Props.C142_polarization' depends on axioms: [propext, Classical.choice, Quot.sound]
'Verif.Props.C143_turned' depends on axioms: [propext, Classical.choice, Quot.sound]
'Verif.Props.C143_quarter_turns' depends on axioms: [propext, Classical.choice, Quot.sound]
'Verif.Props.C143_half_turns' depends on axioms: [propext, Classical.choice, Quot.sound]
'Verif.Props.C144_gaussian' depends on axioms: [propext, Classical.choice, Quot.sound]
'Verif.Props.C144_cross_talk' depends on axioms: [propext, Classical.choice, Quot.sound]
'Verif.Props.C144_plate' depends on axioms: [propext, Classical.choice, Quot.sound]
'Verif.Props.C145_killed' depends on axioms: [propext, Classical.choice, Quot.sound]
'Verif.Props.C145_gaussian' depends on axioms: [propext, Classical.choice, Quot.sound]
'Verif.Props.C145_removed_partial' depends on axioms: [propext, Classical.choice, Quot.sound]
'Verif.Props.C145_violation_removed' depends on axioms: [propext, Classical.choice, Quot.sound]
'Verif.Props.C146_beams' depends on axioms: [propext, Classical.choice, Quot.sound]
'Verif.Props.C146_cross_talk' depends on axioms: [propext, Classical.choice, Quot.sound]
'Verif.Props.C146_gaussian' depends on axioms: [propext, Classical.choice, Quot.sound]
'Verif.Props.C146_plate' depends on axioms: [propext, Classical.choice, Quot.sound]
'Verif.Props.C147_transmission' depends on axioms: [propext, Classical.choice, Quot.sound]
'Verif.Props.C147_turned_over' depends on axioms: [propext, Classical.choice, Quot.sound]
'Verif.Props.C147_plates' depends on axioms: [propext, Classical.choice, Quot.sound]
'Verif.Props.C147_reflection' depends on axioms: [propext, Classical.choice, Quot.sound]
'Verif.Props.C147_tilted' depends on axioms: [propext, Classical.choice, Quot.sound]
'Verif.Props.C148_position' depends on axioms: [propext, Classical.choice, Quot.sound]
'Verif.Props.C148_rolled' depends on axioms: [propext, Classical.choice, Quot.sound]
'Verif.Props.C148_symmetric' depends on axioms: [propext, Classical.choice, Quot.sound]
'Verif.Props.C148_maps' depends on axioms: [propext, Classical.choice, Quot.sound]
'Verif.Props.C149_order' depends on axioms: [propext, Classical.choice, Quot.sound]
'Verif.Props.C149_parts' depends on axioms: [propext, Classical.choice, Quot.sound]
'Verif.Props.C150_best_fit' depends on axioms: [propext, Classical.choice, Quot.sound]
'Verif.Props.C150_scan' depends on axioms: [propext, Classical.choice, Quot.sound]
'Verif.Props.C150_noise' depends on axioms: [propext, Classical.choice, Quot.sound]
'Verif.Props.C150_again' depends on axioms: [propext, Classical.choice, Quot.sound]
'Verif.Props.C151_gain' depends on axioms: [propext, Classical.choice, Quot.sound]
'Verif.Props.C151_energy' depends on axioms: [propext, Classical.choice, Quot.sound]
'Verif.Props.C151_linear' depends on axioms: [propext, Classical.choice, Quot.sound]
'Verif.Props.C152_linear' depends on axioms: [propext, Classical.choice, Quot.sound]
'Verif.Props.C152_solved' depends on axioms: [propext, Classical.choice, Quot.sound]
'Verif.Props.C153_sum' depends on axioms: [propext, Classical.choice, Quot.sound]
'Verif.Props.C153_order' depends on axioms: [propext, Classical.choice, Quot.sound]
'Verif.Props.C153_best_fit' depends on axioms: [propext, Classical.choice, Quot.sound]
'Verif.Props.C154_outcome' depends on axioms: [propext, Classical.choice, Quot.sound]
'Verif.Props.C154_refused' depends on axioms: [propext, Classical.choice, Quot.sound]
'Verif.Props.C154_sky' depends on axioms: [propext, Classical.choice, Quot.sound]
'Verif.Props.C154_not_turning' depends on axioms: [propext, Classical.choice, Quot.sound]
'Verif.Props.C154_short' depends on axioms: [propext, Classical.choice, Quot.sound]
'Verif.Props.C155_covariance' depends on axioms: [propext, Classical.choice, Quot.sound]
'Verif.Props.C155_unbiased' depends on axioms: [propext, Classical.choice, Quot.sound]
'Verif.Props.C155_least_noise' depends on axioms: [propext, Classical.choice, Quot.sound]
'Verif.Props.C155_more' depends on axioms: [propext, Classical.choice, Quot.sound]
'Verif.Props.C155_hits' depends on axioms: [propext, Classical.choice, Quot.sound]
'Verif.Props.C155_balanced' depends on axioms: [propext, Classical.choice, Quot.sound]
'Verif.Props.C155_binned' depends on axioms: [propext, Classical.choice, Quot.sound]
'Verif.Props.C155_condition' depends on axioms: [propext, Classical.choice, Quot.sound]
'Verif.Props.C155_unequal' depends on axioms: [propext, Classical.choice, Quot.sound]
'Verif.Props.C156_null' depends on axioms: [propext, Classical.choice, Quot.sound]
'Verif.Props.C156_scans' depends on axioms: [propext, Classical.choice, Quot.sound]
