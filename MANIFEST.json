{
 "claims": [
  {
   "property": "C01",
   "status": "proved",
   "theorems": [
    "Slam.Grid.world_to_cell_iff_in_bounds",
    "Slam.Grid.world_points_partitioned",
    "Slam.Grid.cell_centre_round_trip",
    "Slam.Grid.cell_bounds_geometry",
    "Slam.Grid.cell_bounds_adjacent",
    "Slam.Grid.world_to_cell_mono"
   ],
   "note": "exact arithmetic over any floor field; conversion to int assumed in range"
  },
  {
   "property": "C02",
   "status": "proved",
   "theorems": [
    "Slam.Grid.external_internal_inverse",
    "Slam.Grid.has_cell_iff",
    "Slam.Grid.has_cell_bijection",
    "Slam.Grid.has_cell_count",
    "Slam.Grid.origin_cell_exists"
   ],
   "note": ""
  },
  {
   "property": "C03",
   "status": "proved",
   "theorems": [
    "Slam.Line.bresenham_is_digital_line",
    "Slam.Line.bresenham_unbounded",
    "Slam.Line.bresenham_int32",
    "Slam.Line.bresenham_int32_overflow",
    "Slam.Line.digital_line_between"
   ],
   "note": "32-bit overflow is modelled; guaranteed absent for |coordinates| ≤ 3·10^8"
  },
  {
   "property": "C04",
   "status": "proved",
   "theorems": [
    "Slam.Line.world_to_cells_connects",
    "Slam.Line.world_to_cells_in_box"
   ],
   "note": "for every interpretation of the floating point operations"
  },
  {
   "property": "C05",
   "status": "proved",
   "theorems": [
    "Slam.Rect.raster_enumerates_once",
    "Slam.Rect.raster_border_covers",
    "Slam.Rect.raster_no_border_covers",
    "Slam.Rect.raster_infinite",
    "Slam.Rect.raster_own_cell",
    "Slam.Rect.raster_infinite_scale",
    "Slam.Rect.rasterizes_unique",
    "Slam.Rect.raster_line_counterexample"
   ],
   "note": "degenerate (zero-area) rectangles are excluded from the coverage claim: counterexample theorem"
  },
  {
   "property": "C06",
   "status": "proved",
   "theorems": [
    "Slam.Rect.split_vert_tiles",
    "Slam.Rect.split_horz_tiles",
    "Slam.Rect.split4_tiles",
    "Slam.Rect.move_center_shrink"
   ],
   "note": "exact arithmetic"
  },
  {
   "property": "C07",
   "status": "proved",
   "theorems": [
    "Slam.Rect.intersection_exact",
    "Slam.Rect.intersection_total",
    "Slam.Rect.overlap_ratio",
    "Slam.Rect.overlap_monotone",
    "Slam.Rect.overlap_point",
    "Slam.Rect.lessOrEqual_separated",
    "Slam.Rect.overlap_cross_counterexample",
    "Slam.Rect.near_touch_counterexample",
    "Slam.Rect.never_three_corners",
    "Slam.Rect.overlap_degenerate"
   ],
   "note": "Under the two provisos of the statement; each is necessary (counterexample theorems)."
  },
  {
   "property": "C08",
   "status": "proved",
   "theorems": [
    "Slam.PlainMap.unbounded_plain_map_refines",
    "Slam.PlainMap.unbounded_plain_map_extent",
    "Slam.PlainMap.unbounded_plain_map_untouched"
   ],
   "note": "any rounding of the growth factor; unsigned overflow of huge sizes not modelled"
  },
  {
   "property": "C09",
   "status": "proved",
   "theorems": [
    "Slam.PlainMap.bounded_plain_map_refines",
    "Slam.PlainMap.bounded_plain_map_rejects_update"
   ],
   "note": "reset outside of the extent is undefined behaviour in the code (not checked)"
  },
  {
   "property": "C10",
   "status": "proved",
   "theorems": [
    "Slam.LazyMap.lazy_maps_refine"
   ],
   "note": "any tile size, any number of coexisting objects; heap with owner counts"
  },
  {
   "property": "C11",
   "status": "proved",
   "theorems": [
    "Slam.LazyMap.lazy_maps_refine",
    "Slam.LazyMap.copy_isolated"
   ],
   "note": "any interleaving of create/copy/destroy/update/reset"
  },
  {
   "property": "C12",
   "status": "proved",
   "theorems": [
    "Slam.LazyMap.lazy_maps_any_access",
    "Slam.LazyMap.extent_places_distinct",
    "Slam.LazyMap.bounded_lazy_write",
    "Slam.LazyMap.lazy_maps_refine",
    "Slam.LazyMap.bounded_lazy_map_aliases_counterexample",
    "Slam.LazyMap.bounded_lazy_map_out_of_range_write_counterexample"
   ],
   "note": "Complete description of every access; the wish that out-of-extent writes be isolated is false (counterexamples)."
  },
  {
   "property": "C13",
   "status": "proved",
   "theorems": [
    "Slam.Multires.levels_form_pyramid",
    "Slam.Multires.starts_finest",
    "Slam.Multires.rescale_exact",
    "Slam.Multires.finestNotFiner_unique",
    "Slam.Multires.rescale_to_level",
    "Slam.Multires.safe_rescale_restores",
    "Slam.Multires.levels_cover",
    "Slam.Multires.finest_level_size"
   ],
   "note": "Levels form a power-of-two pyramid, rescale selects the finest level not finer than the target, safe_rescale restores, coarsest level covers."
  },
  {
   "property": "C14",
   "status": "proved",
   "theorems": [
    "Slam.Multires.coarse_bounds_fine",
    "Slam.Multires.invalid_observation_counterexample",
    "Slam.Multires.added_level_counterexample",
    "Slam.Multires.unknown_cell_counterexample",
    "Slam.Multires.tolerance_adds_up_counterexample",
    "Slam.Multires.finest_level_is_ordinary"
   ],
   "note": "For all histories of valid observations/resets to known cells and for the initial levels plus the coarsest one, up to one comparison tolerance per level. Each proviso is necessary: four counterexamples are proved."
  },
  {
   "property": "C15",
   "status": "proved",
   "theorems": [
    "Slam.Multires.rotations_spec",
    "Slam.Multires.next_best_bounds_all",
    "Slam.Multires.result_is_best",
    "Slam.Multires.search_terminates",
    "Slam.Multires.tiny_step_never_ends",
    "Slam.Multires.comparator_top",
    "Slam.Multires.comparator_cycle_counterexample",
    "Slam.Multires.range_bound_admissible",
    "Slam.Multires.search_bounds_hold"
   ],
   "note": "Optimality up to the queue tolerance and the admissibility slack; termination needs a step above 2^-52 (otherwise no search ends, proved). The comparator of the queue is not an ordering (proved), so the queue's contract is assumed as: the popped match is exceeded by none by more than δ. search_bounds_hold: admissibility of the code's bounds needs known cells (see C14)."
  },
  {
   "property": "C16",
   "status": "proved",
   "theorems": [
    "Slam.ScanAdder.beam_insertion",
    "Slam.ScanAdder.beams_insertion",
    "Slam.ScanAdder.scan_insertion",
    "Slam.ScanAdder.scan_into_plain_map",
    "Slam.ScanAdder.scan_into_lazy_map",
    "Slam.ScanAdder.worldPoints_rigid",
    "Slam.ScanAdder.beam_updates_cells_passed"
   ],
   "note": "Every estimator, blur setting, scale and beam; exact arithmetic for the traversal (C04 covers any rounding); ends within the 32-bit range."
  },
  {
   "property": "C17",
   "status": "proved",
   "theorems": [
    "Slam.ScanAdder.scan_margin",
    "Slam.ScanAdder.scan_margin_general",
    "Slam.ScanAdder.scan_margin_too_wide_counterexample",
    "Slam.ScanAdder.sensor_scan_insertion"
   ],
   "note": "m < n is necessary: counterexample for wider margins."
  },
  {
   "property": "C18",
   "status": "proved",
   "theorems": [
    "Slam.Cells.affine_cell_step",
    "Slam.Cells.affine_cell_invalid",
    "Slam.Cells.affine_cell_stays_probability",
    "Slam.Cells.base_cell_holds_last"
   ],
   "note": ""
  },
  {
   "property": "C19",
   "status": "proved",
   "theorems": [
    "Slam.Cells.mean_cell_is_mean",
    "Slam.Cells.mean_cell_order_independent",
    "Slam.Cells.mean_cell_stays_probability"
   ],
   "note": ""
  },
  {
   "property": "C20",
   "status": "proved",
   "theorems": [
    "Slam.Tbm.combination_rules",
    "Slam.Tbm.combination_comm",
    "Slam.Tbm.combination_assoc",
    "Slam.Tbm.vacuous_neutral",
    "Slam.Tbm.normalize_is_mass",
    "Slam.Tbm.belief_stays_mass"
   ],
   "note": "exact arithmetic; spec = conjunctive/disjunctive rule over subsets of {occupied, empty}"
  },
  {
   "property": "C21",
   "status": "proved",
   "theorems": [
    "Slam.Tbm.belief_closed_form",
    "Slam.Tbm.belief_cell_order_independent",
    "Slam.Tbm.even_cell_occupancy",
    "Slam.Tbm.consistent_cell_occupancy",
    "Slam.Tbm.contradictory_order_counterexample",
    "Slam.Tbm.consistent_cell_nan_counterexample"
   ],
   "note": "the hypothesis of no certain contradiction is necessary (counterexample)"
  },
  {
   "property": "C22",
   "status": "proved",
   "theorems": [
    "Slam.Tbm.naive_discrepancy",
    "Slam.Tbm.tbm_discrepancy_bounded",
    "Slam.Tbm.tbm_discrepancy_scale",
    "Slam.Tbm.credibilist_discrepancy_bounded",
    "Slam.Tbm.credibilist_zero_iff",
    "Slam.Tbm.gm_discrepancy_bounded",
    "Slam.Tbm.credibilist_agreement_counterexample"
   ],
   "note": "All kinds; the credibilist kind disagrees with agreement on emptiness (counterexample)."
  },
  {
   "property": "C23",
   "status": "proved",
   "theorems": [
    "Slam.Cells.gm_cell_occupancy",
    "Slam.Cells.gm_cell_hit_ratio",
    "Slam.Cells.gm_cell_obstacle",
    "Slam.Cells.gm_cell_hit_ratio_counterexample"
   ],
   "note": ""
  },
  {
   "property": "C24",
   "status": "proved",
   "theorems": [
    "Slam.Serial.serialization_roundtrip",
    "Slam.Serial.serialization_size"
   ],
   "note": "byte level, any surrounding bytes; bool/int/double/size_t; little endian"
  },
  {
   "property": "C25",
   "status": "proved",
   "theorems": [
    "Slam.Serial.map_state_roundtrip",
    "Slam.Serial.map_state_roundtrip_reads",
    "Slam.Serial.rescalable_state_roundtrip",
    "Slam.Serial.affine_cell_roundtrip",
    "Slam.Serial.tbm_cell_roundtrip",
    "Slam.Serial.mean_cell_roundtrip",
    "Slam.Serial.gmapping_cell_roundtrip"
   ],
   "note": "sizes fit int; uncompressed build; mean and GMapping cells come back without their counters (their reads are equal)"
  },
  {
   "property": "C26",
   "status": "proved",
   "theorems": [
    "Slam.Serial.save_load_any_cell",
    "Slam.Serial.save_load_transparent",
    "Slam.Serial.save_load_transparent_affine",
    "Slam.Serial.save_load_transparent_tbm",
    "Slam.Serial.mean_reload_counterexample",
    "Slam.Serial.gmapping_reload_counterexample",
    "Slam.Serial.default_save_load_counterexample"
   ],
   "note": "For every later history; not transparent for mean and GMapping cells and for the other maps (counterexamples)."
  },
  {
   "property": "C27",
   "status": "proved",
   "theorems": [
    "Slam.Score.direction_range",
    "Slam.Score.direction_parallel",
    "Slam.Score.reset_counts",
    "Slam.Score.counts_add_up",
    "Slam.Score.value_is_bin_count"
   ],
   "note": "Doubles modelled as reals."
  },
  {
   "property": "C28",
   "status": "proved",
   "theorems": [
    "Slam.ScanMatch.enumeration_returns_first_maximum",
    "Slam.ScanMatch.enumeration_notifications",
    "Slam.ScanMatch.enumeration_undefined_initial",
    "Slam.ScanMatch.observer_sees_events",
    "Slam.ScanMatch.unsubscribe_removes"
   ],
   "note": "For every pose enumerator and scoring function; NaN scores are none."
  },
  {
   "property": "C29",
   "status": "proved",
   "theorems": [
    "Slam.ScanMatch.brute_force_session",
    "Slam.ScanMatch.brute_force_run",
    "Slam.ScanMatch.brute_force_first_run",
    "Slam.ScanMatch.brute_force_second_run_counterexample"
   ],
   "note": "Every run of every session; the base pose is that of the first run (counterexample to the wish)."
  },
  {
   "property": "C30",
   "status": "proved",
   "theorems": [
    "Slam.ScanMatch.hill_climbing_follows_rounds",
    "Slam.ScanMatch.tests_iff_climb",
    "Slam.ScanMatch.climb_accounting",
    "Slam.ScanMatch.hill_climbing_terminates",
    "Slam.ScanMatch.climb_local_optimum"
   ],
   "note": "Termination under the assumption that scores take finitely many values."
  },
  {
   "property": "C31",
   "status": "proved",
   "theorems": [
    "Slam.ScanMatch.monte_carlo_bounded",
    "Slam.ScanMatch.monte_carlo_dispersion",
    "Slam.ScanMatch.monte_carlo_monotone"
   ],
   "note": "The sample stream is arbitrary."
  },
  {
   "property": "C32",
   "status": "proved",
   "theorems": [
    "Slam.ScanMatch.fixed_never_worse",
    "Slam.ScanMatch.fixed_limit_drifts",
    "Slam.ScanMatch.fixed_local_optimum",
    "Slam.ScanMatch.fixed_local_optimum_neighbours",
    "Slam.ScanMatch.fixed_limit_counterexample"
   ],
   "note": "The loop increments the configured limit itself."
  },
  {
   "property": "C33",
   "status": "proved",
   "theorems": [
    "Slam.Score.filter_keeps_usable",
    "Slam.Score.weights_defined",
    "Slam.Score.score_is_weighted_mean",
    "Slam.Score.score_bounded",
    "Slam.Score.even_score_is_mean",
    "Slam.Score.unknown_score_unrecognised_counterexample",
    "Slam.Score.obstacle_position"
   ],
   "note": "Reals; point factors are one, as in every scan the library builds. Finding: is_prob_unknown compares with NaN and never holds (unknown_score_unrecognised_counterexample)."
  },
  {
   "property": "C34",
   "status": "proved",
   "theorems": [
    "Slam.Score.max_estimate",
    "Slam.Score.mean_estimate",
    "Slam.Score.max_monotone",
    "Slam.Score.max_grows_with_area",
    "Slam.Score.area_nonempty",
    "Slam.Score.point_estimates_agree",
    "Slam.Score.overlap_estimate_bounded",
    "Slam.Score.max_line_counterexample",
    "Slam.Score.estimate_measures_likeness",
    "Slam.Score.bad_impact_refused"
   ],
   "note": "Enlarging a point to a line of zero area can lower the estimate (max_line_counterexample), which is why the statement asks for positive area."
  },
  {
   "property": "C35",
   "status": "proved",
   "theorems": [
    "Slam.Particle.normalize_weights_spec",
    "Slam.Particle.normalize_undefined",
    "Slam.Particle.weights_always_normalised"
   ],
   "note": ""
  },
  {
   "property": "C36",
   "status": "proved",
   "theorems": [
    "Slam.Particle.resample_indices_spec",
    "Slam.Particle.effective_sample_size",
    "Slam.Particle.resampling_rule",
    "Slam.Particle.uniform_never_resamples",
    "Slam.Particle.resample_population"
   ],
   "note": "Samples are arbitrary numbers in [0,1)."
  },
  {
   "property": "C37",
   "status": "proved",
   "theorems": [
    "Slam.Particle.exactly_one_master",
    "Slam.Particle.filter_never_fails"
   ],
   "note": "For at least one configured particle."
  },
  {
   "property": "C38",
   "status": "proved",
   "theorems": [
    "Slam.Worlds.scan_notifies_observers",
    "Slam.Worlds.only_scans_notify",
    "Slam.Worlds.destroyed_not_notified",
    "Slam.Worlds.insertion_quality"
   ],
   "note": ""
  },
  {
   "property": "C39",
   "status": "proved",
   "theorems": [
    "Slam.Worlds.increments_telescope",
    "Slam.Worlds.world_follows_odometry_with_corrections",
    "Slam.Worlds.no_action_world_is_at_odometry"
   ],
   "note": ""
  },
  {
   "property": "C40",
   "status": "proved",
   "theorems": [
    "Slam.Worlds.message_conversion",
    "Slam.Worlds.message_points"
   ],
   "note": ""
  },
  {
   "property": "C41",
   "status": "proved",
   "theorems": [
    "Slam.Particle.odometry_related_by_one_rigid_motion",
    "Slam.Particle.odometry_preserves_shape",
    "Slam.Particle.traversed_is_total_variation",
    "Slam.Particle.observation_effect"
   ],
   "note": "Over the reals with exact trigonometry."
  },
  {
   "property": "C42",
   "status": "proved",
   "theorems": [
    "Slam.Sensor.cached_equals_direct",
    "Slam.Sensor.cache_serves_every_beam",
    "Slam.Worlds.message_cache",
    "Slam.Worlds.clockwise_cache_empty"
   ],
   "note": "Doubles modelled as reals. Positive angle increments for the table; the empty table of clockwise messages is a defect of the code, stated as it is (clockwise_cache_empty)."
  },
  {
   "property": "C43",
   "status": "proved",
   "theorems": [
    "Slam.Sensor.coordinates_consistent",
    "Slam.Sensor.conversions_keep_coordinates",
    "Slam.Sensor.conversions_inverse",
    "Slam.Sensor.moves_agree",
    "Slam.Sensor.move_is_rigid",
    "Slam.Sensor.move_is_isometry",
    "Slam.Sensor.prerotated_scan",
    "Slam.Sensor.conversions_shift",
    "Slam.Sensor.scan_rotated"
   ],
   "note": "Doubles modelled as reals."
  },
  {
   "property": "C44",
   "status": "proved",
   "theorems": [
    "Slam.Config.property_precedence",
    "Slam.Config.reading_ends",
    "Slam.Config.reading_ends_iff",
    "Slam.Config.circular_include_never_ends",
    "Slam.Config.set_property_wins",
    "Slam.Config.lines_of_text",
    "Slam.Config.readLine_entry",
    "Slam.Config.readLine_include",
    "Slam.Config.include_overrides_counterexample"
   ],
   "note": "Files are texts and a path rule (parameters); console warnings are not modelled. An included file overrides the file that includes it (include_overrides_counterexample)."
  },
  {
   "property": "C45",
   "status": "proved",
   "theorems": [
    "Slam.Config.map_dimensions",
    "Slam.Config.square_map_dimensions",
    "Slam.Config.width_height_swapped_counterexample"
   ],
   "note": "init_grid_map_params exchanges width and height; the counterexample is a 20 m x 10 m map."
  },
  {
   "property": "C46",
   "status": "proved",
   "theorems": [
    "Slam.Dump.pgm_shows_map",
    "Slam.Dump.grey_values",
    "Slam.Dump.every_update_dumped",
    "Slam.Dump.grid_msg_shows_map",
    "Slam.Dump.publishing_interval",
    "Slam.Dump.update_published_iff"
   ],
   "note": "The map is any width, height, origin, scale and occupancy; the float of the message's resolution is exact in the model, file errors are not modelled."
  },
  {
   "property": "C47",
   "status": "proved",
   "theorems": [
    "Slam.Bag.handled_in_order",
    "Slam.Bag.run_ends",
    "Slam.Bag.ends_where_stuck",
    "Slam.Bag.no_message_lost",
    "Slam.Bag.dropped_past_recovery",
    "Slam.Bag.end_of_bag_counterexample",
    "Slam.Bag.early_message_counterexample"
   ],
   "note": "For every bag and every tf behaviour; dropped_past_recovery assumes that added transforms do not bring the past back, no_message_lost that no lookup fails or speaks of the past."
  },
  {
   "property": "C48",
   "status": "proved",
   "theorems": [
    "Slam.Pub.correction_composes",
    "Slam.Pub.correction_composes_horizontally",
    "Slam.Pub.sent_is_latest",
    "Slam.Pub.sent_never_goes_back",
    "Slam.Pub.stored_in_order",
    "Slam.Pub.every_stored_is_sent",
    "Slam.Pub.no_deadlock",
    "Slam.Pub.slam_first_counterexample"
   ],
   "note": "tf::Transform as exact real matrices; the two threads as word-by-word interleavings with a mutex; a wrong subscription order (vinyX node) breaks the composition: slam_first_counterexample"
  },
  {
   "property": "C49",
   "status": "proved",
   "theorems": [
    "Slam.Estimator.estimate_range",
    "Slam.Estimator.estimate_valid",
    "Slam.Estimator.estimate_valid_along_edge",
    "Slam.Estimator.estimate_valid_exact",
    "Slam.Estimator.estimate_along_edge",
    "Slam.Estimator.free_estimate_iff_crossing",
    "Slam.Estimator.estimate_tolerant_eq_exact",
    "Slam.Estimator.estimate_tolerant_along_edge",
    "Slam.Estimator.near_coincidence_counterexample",
    "Slam.Estimator.estimate_not_translation_invariant_counterexample",
    "Slam.Estimator.static_shift_counterexample",
    "Slam.Estimator.touching_end_counterexample",
    "Slam.Estimator.point_beam_counterexample",
    "Slam.Estimator.obstacle_at_near_corner",
    "Slam.Estimator.obstacle_at_far_corner"
   ],
   "note": "Range for every comparison, beam and square cell. Validity and absence of failed assertions: for the code's tolerant comparisons if the beam is clear of near-coincidences (Clear), and for exact comparisons without that."
  },
  {
   "property": "C50",
   "status": "proved",
   "theorems": [
    "Slam.Poses.pose_add_sub_inverse",
    "Slam.Poses.pose_accumulates",
    "Slam.Poses.pose_accumulates_perm",
    "Slam.Poses.is_abs_less_iff",
    "Slam.Poses.motion_test",
    "Slam.Poses.are_equal_zero_iff",
    "Slam.Poses.sq_dist_spec"
   ],
   "note": "Exact arithmetic."
  },
  {
   "property": "C51",
   "status": "proved",
   "theorems": [
    "Slam.Poses.pose_graph_is_chain",
    "Slam.Poses.pose_graph_integrates",
    "Slam.Poses.node_creation_rule"
   ],
   "note": ""
  },
  {
   "property": "C52",
   "status": "proved",
   "theorems": [
    "Slam.Primitive.cecum_shape",
    "Slam.Primitive.free_space_is_free",
    "Slam.Primitive.free_space_is_complete",
    "Slam.Primitive.patch_applied",
    "Slam.Primitive.autoalign_centred"
   ],
   "note": "The target map is its cells by coordinate with any cell update; automatic alignment is proved as it is (half a cell or a cell above the middle)."
  },
  {
   "property": "C53",
   "status": "proved",
   "theorems": [
    "Slam.Config.command_line",
    "Slam.Config.every_command_line",
    "Slam.Config.dangling_flag_counterexample",
    "Slam.Config.split_option_counterexample",
    "Slam.Config.unknown_switch_counterexample"
   ],
   "note": "every_command_line covers all argument lists."
  },
  {
   "property": "C54",
   "status": "proved",
   "theorems": [
    "Slam.Line.world_to_cells_exact",
    "Slam.Line.world_to_cells_axis_parallel",
    "Slam.Line.world_to_cells_exact_of_no_tie",
    "Slam.Line.corner_hit_counterexample",
    "Slam.Line.fine_grid_counterexample"
   ],
   "note": "Exact arithmetic. The second and third theorem hold for any zero test, the code's tolerant one included; the first is for the exact test (for the code's test the no-tie hypothesis of the third one replaces it)."
  },
  {
   "property": "C55",
   "status": "proved",
   "theorems": [
    "Slam.Particle.reports_heaviest",
    "Slam.Particle.world_is_heaviest"
   ],
   "note": ""
  },
  {
   "property": "C56",
   "status": "proved",
   "theorems": [
    "Slam.Particle.noise_at_creation",
    "Slam.Particle.noise_inherited",
    "Slam.Particle.perturbed_then_matched",
    "Slam.Particle.master_unperturbed",
    "Slam.Particle.copies_lose_noise_counterexample"
   ],
   "note": "Exactly the master and the descendants of masters are exempt."
  },
  {
   "property": "C57",
   "status": "proved",
   "theorems": [
    "Slam.Particle.particles_share_one_map",
    "Slam.Particle.shared_map_counterexample",
    "Slam.Particle.observation_effect"
   ],
   "note": "A finding: a Rao-Blackwellised filter is expected to have one map per particle."
  },
  {
   "property": "C58",
   "status": "proved",
   "theorems": [
    "Slam.Worlds.stamp_value",
    "Slam.Worlds.stamp_correct_iff",
    "Slam.Worlds.stamp_order_counterexample"
   ],
   "note": "Exact criterion for correct stamps."
  },
  {
   "property": "C59",
   "status": "proved",
   "theorems": [
    "Slam.Score.window_estimate",
    "Slam.Score.every_window_estimate",
    "Slam.Score.stale_cache_counterexample"
   ],
   "note": "The cache is keyed by the cell only."
  },
  {
   "property": "C60",
   "status": "proved",
   "theorems": [
    "Slam.Config.int_property_as_written",
    "Slam.Config.uint_property_as_written",
    "Slam.Config.uint_property_wraps",
    "Slam.Config.missing_and_bool",
    "Slam.Config.negative_uint_counterexample",
    "Slam.Config.large_uint_counterexample",
    "Slam.Config.capital_false_counterexample",
    "Slam.Config.double_property_as_written",
    "Slam.Config.missing_double",
    "Slam.Config.double_comma_counterexample",
    "Slam.Config.int_without_number",
    "Slam.Config.double_without_number"
   ],
   "note": "std::stod is modelled on decimal texts (Config/Double.lean); hexadecimal, inf and nan texts are not modelled."
  },
  {
   "property": "C61",
   "status": "proved",
   "theorems": [
    "Slam.Config.ignored_transforms",
    "Slam.Config.ignored_transforms_listed",
    "Slam.Config.hyphen_frame_counterexample"
   ],
   "note": "Every text of the property."
  },
  {
   "property": "C62",
   "status": "proved",
   "theorems": [
    "Slam.Estimator.free_quality_is_smaller_share",
    "Slam.Estimator.free_quality_is_smaller_share_code",
    "Slam.Estimator.free_end_inside",
    "Slam.Estimator.occupied_share",
    "Slam.Estimator.occupied_share_code",
    "Slam.Estimator.occupied_share_beyond",
    "Slam.Estimator.cut_ends_exist",
    "Slam.Estimator.occupied_share_either",
    "Slam.Estimator.occupied_share_before_counterexample",
    "Slam.Estimator.estimate_not_translation_invariant_counterexample"
   ],
   "note": "Areas are Lebesgue measures of the parts of the cell. occupied_share says exactly which part is taken; that it is not always the one beyond the obstacle is a counterexample theorem."
  },
  {
   "property": "C63",
   "status": "proved",
   "theorems": [
    "Slam.Drift.drift_detector",
    "Slam.Drift.drift_detector_moves_little",
    "Slam.Drift.polar_run",
    "Slam.Drift.drift_detector_can_lose_counterexample"
   ],
   "note": "Exact arithmetic; the score is an arbitrary function of the points and the pose (the estimator's weights stay those of the unreduced scan, which is part of that function)."
  },
  {
   "property": "C64",
   "status": "proved",
   "theorems": [
    "Slam.Drift.max_bin",
    "Slam.Drift.min_bin",
    "Slam.Drift.major_direction_spec",
    "Slam.Drift.minor_direction_undefined",
    "Slam.Drift.minor_direction_spec"
   ],
   "note": ""
  },
  {
   "property": "C65",
   "status": "proved",
   "theorems": [
    "Slam.ScanGen.generated_scan",
    "Slam.ScanGen.generated_points_hit",
    "Slam.ScanGen.beams_of_to_lsp",
    "Slam.ScanGen.occupied_cell_counterexample"
   ],
   "note": "Exact real arithmetic and exact comparisons; the point construction (move_origin) and rasterisation are the modelled ones."
  },
  {
   "property": "C66",
   "status": "proved",
   "theorems": [
    "Slam.ScanGen.generated_scan_agrees_with_map"
   ],
   "note": "Exact real arithmetic; generator with exact comparisons, insertion with the code's tolerant ones (hence the tie precondition)."
  },
  {
   "property": "C67",
   "status": "proved",
   "theorems": [
    "Slam.Nodes.transforms_forwarded",
    "Slam.Nodes.no_correction_sent",
    "Slam.Nodes.grid_published"
   ],
   "note": "Callbacks and loop of the node are one sequence of events; strings static in on_tf_msg are fixed parameters."
  },
  {
   "property": "C68",
   "status": "proved",
   "theorems": [
    "Slam.Nodes.path_published",
    "Slam.Nodes.path_progress",
    "Slam.Nodes.path_without_orientation"
   ],
   "note": "tf look-ups and ros::ok() are an arbitrary environment."
  },
  {
   "property": "C69",
   "status": "proved",
   "theorems": [
    "Slam.Config.launch_agrees_with_file",
    "Slam.Config.launch_uint_agrees",
    "Slam.Config.launch_typed",
    "Slam.Config.launch_set",
    "Slam.Config.launch_type_counterexample"
   ],
   "note": "roscpp's typed look-up (which types convert) is modelled from its documentation; stod is a parameter."
  },
  {
   "property": "C70",
   "status": "proved",
   "theorems": [
    "Slam.Nodes.console_view"
   ],
   "note": "Exact arithmetic."
  },
  {
   "property": "C71",
   "status": "proved",
   "theorems": [
    "Slam.Nodes.graph_view",
    "Slam.Nodes.graph_view_published"
   ],
   "note": "Colours, scales and namespaces of the markers are not modelled."
  },
  {
   "property": "C72",
   "status": "proved",
   "theorems": [
    "Slam.Config.assembled_as_configured",
    "Slam.Config.credibilist_as_configured",
    "Slam.Config.gmapping_as_configured",
    "Slam.Config.m3rsm_iff_coarse_map",
    "Slam.Config.other_properties_ignored",
    "Slam.Config.shipped_properties_ignored_counterexample",
    "Slam.Config.gmapping_other_properties_ignored",
    "Slam.Config.gmapping_window_ignored_counterexample",
    "Slam.Config.credibilist_other_properties_ignored",
    "Slam.Config.credibilist_fixed_choices"
   ],
   "note": "Components are described by class and constructor arguments. The known keys are those of the code; the counterexample shows that keys used by the shipped configuration (BF_M3RSM/limit/...) and the documented OMQE key are not among them."
  },
  {
   "property": "C73",
   "status": "proved",
   "theorems": [
    "Slam.Float.affine_rounded_probability",
    "Slam.Float.mean_rounded_probability",
    "Slam.Float.gm_rounded_probability",
    "Slam.Float.affine_rounded_accuracy",
    "Slam.Float.mean_rounded_accuracy"
   ],
   "note": "every rounding to nearest (mean range: ties to even); no overflow/NaN"
  },
  {
   "property": "C74",
   "status": "proved",
   "theorems": [
    "Slam.Float.normalize_rounded_probability",
    "Slam.Float.normalize_rounded_sum",
    "Slam.Float.pickF_alive",
    "Slam.Float.pickF_first",
    "Slam.Float.normalized_pick_alive",
    "Slam.Float.dead_particle_counterexample",
    "Slam.Float.required_rounded",
    "Slam.Float.required_exact"
   ],
   "note": "every rounding to nearest"
  },
  {
   "property": "C75",
   "status": "proved",
   "theorems": [
    "Slam.Float.score_rounded_probability",
    "Slam.Float.score_exact",
    "Slam.Float.score_rounded_accuracy"
   ],
   "note": "every rounding to nearest; the products inside are rounded in the order of the code"
  },
  {
   "property": "C76",
   "status": "proved",
   "theorems": [
    "Slam.Float.worldToCell_rounded",
    "Slam.Float.worldToCell_monotone",
    "Slam.Float.cell_centre_rounded",
    "Slam.Float.cell_bounds_rounded",
    "Slam.Float.point_in_cell_rounded",
    "Slam.Float.border_point_counterexample"
   ],
   "note": "every rounding to nearest"
  },
  {
   "property": "C77",
   "status": "proved",
   "theorems": [
    "Slam.Float.brute_force_rounded",
    "Slam.Float.axis_rounded",
    "Slam.Float.brute_force_stuck",
    "Slam.Float.extra_candidate_counterexample",
    "Slam.Float.missed_limit_counterexample"
   ],
   "note": "brute_force_rounded for an arbitrary rounding function; axis_rounded for every rounding to nearest"
  },
  {
   "property": "C78",
   "status": "proved",
   "theorems": [
    "Slam.Float.histogram_rounded",
    "Slam.Float.nearly_horizontal_counterexample",
    "Slam.Float.index_past_end_counterexample",
    "Slam.Float.histogram_rounded_accuracy"
   ],
   "note": "acos of libm is a parameter: accurate to 2^-40, exact at 1 and -1 (GoodAcos)"
  },
  {
   "property": "C79",
   "status": "proved",
   "theorems": [
    "Slam.Float.belief_rounded",
    "Slam.Float.belief_rounded_sum",
    "Slam.Float.belief_sum_counterexample"
   ],
   "note": "every rounding to nearest"
  },
  {
   "property": "C80",
   "status": "proved",
   "theorems": [
    "Slam.Whole.map_holds_sane_observations",
    "Slam.Whole.map_shows_probabilities",
    "Slam.Whole.published_values",
    "Slam.Whole.pose_is_odometry_and_corrections",
    "Slam.Whole.unseen_cell_is_prototype",
    "Slam.Whole.run_total",
    "Slam.Whole.plain_lawful",
    "Slam.Whole.lazy_lawful",
    "Slam.Whole.const_sound",
    "Slam.Whole.area_sound",
    "Slam.Whole.demo_runs",
    "Slam.Whole.handle_spec"
   ],
   "note": "Composition of the models of the parts. The scan matcher is an arbitrary function of scan, pose and map that leaves the map's contents alone; exact arithmetic."
  },
  {
   "property": "C81",
   "status": "proved",
   "theorems": [
    "Slam.Whole.message_effect",
    "Slam.Whole.gmapping_map_is_log",
    "Slam.Whole.gmapping_map_shows_probabilities",
    "Slam.Whole.gmapping_unseen_cell",
    "Slam.Whole.gmapping_filter_sound",
    "Slam.Whole.gmapping_run_total",
    "Slam.Whole.gmapping_starts"
   ],
   "note": "Composition of the observer, the filter, the particles' worlds, the scan adder and the map. message_effect is a refinement: the filter inside the program does what the filter alone (C35-C41, C55-C57) does with the matcher's answers on the actual map."
  },
  {
   "property": "C82",
   "status": "proved",
   "theorems": [
    "Slam.SearchSpace.search_space_shows_last_score",
    "Slam.SearchSpace.search_space_complete",
    "Slam.SearchSpace.search_space_best_angle_counterexample"
   ],
   "note": "Composition of the observer, the brute force matcher and the growing map."
  },
  {
   "property": "C83",
   "status": "proved",
   "theorems": [
    "Slam.Text.pose_file_round_trip",
    "Slam.Text.scan_file_round_trip",
    "Slam.Text.six_digits_close",
    "Slam.Text.scan_file_fixed_point",
    "Slam.Text.pose_file_fixed_point",
    "Slam.Text.scan_file_too_short",
    "Slam.Text.scan_file_empty",
    "Slam.Text.pose_file_too_short",
    "Slam.Text.scan_file_infinite_counterexample",
    "Slam.Text.pose_file_precision_counterexample"
   ],
   "note": "Character level; the C++ library's number formatting and parsing are modelled in Text/Model.lean and trusted to be so."
  },
  {
   "property": "C84",
   "status": "proved",
   "theorems": [
    "Slam.Text.trajectory_file_reads",
    "Slam.Text.heading_quaternion"
   ],
   "note": "tf's quaternion of roll, pitch, yaw is a library formula, written down in the model."
  },
  {
   "property": "C85",
   "status": "proved",
   "theorems": [
    "Slam.Matcher.matcher_on_map",
    "Slam.Matcher.matcher_returns_best",
    "Slam.Matcher.brute_force_best_on_map",
    "Slam.Matcher.finitely_many_scores",
    "Slam.Matcher.hill_climbing_ends_on_map",
    "Slam.Matcher.monte_carlo_on_map",
    "Slam.Matcher.naive_impact",
    "Slam.Matcher.naive_shows",
    "Slam.Matcher.naive_shows_mean"
   ],
   "note": "The whole composition filter + weighting + point estimator + cell impact + search over every readable map. Point factors are assumed to be one (as scan producers make them)."
  },
  {
   "property": "C86",
   "status": "proved",
   "theorems": [
    "Slam.Matcher.runner_same_as_matcher",
    "Slam.Matcher.usable_idempotent",
    "Slam.Matcher.reset_again",
    "Slam.Matcher.runner_skip_counterexample"
   ],
   "note": "Equality of the runner's and the matcher's results for skip rates 0 and 1; counterexample for skip rate 2."
  },
  {
   "property": "C87",
   "status": "proved",
   "theorems": [
    "Slam.Whole.own_run_is_run",
    "Slam.Whole.own_pose_is_best",
    "Slam.Whole.impact_meaning",
    "Slam.Whole.own_monte_carlo_total",
    "Slam.Whole.finitely_many_probabilities",
    "Slam.Whole.own_hill_climbing_ends",
    "Slam.Whole.run_sound",
    "Slam.Whole.own_message"
   ],
   "note": "Composition of C80 and C85. The occupancy impact estimator is excluded for consistent belief cells and GMapping cells (their occupancy can be NaN or -1, which trips the matcher's assertion); hill climbing's termination is not claimed for GMapping's cells, whose impacts vary within a cell."
  },
  {
   "property": "C88",
   "status": "proved",
   "theorems": [
    "Slam.Whole.configured_started",
    "Slam.Whole.launched_behaves",
    "Slam.Whole.launched_monte_carlo_total",
    "Slam.Whole.launched_hill_climbing_ends",
    "Slam.Whole.launched_brute_force",
    "Slam.Whole.tiny_mit_runs",
    "Slam.Whole.viny_runs",
    "Slam.Config.tiny_mit_read",
    "Slam.Config.viny_mit_read",
    "Slam.Config.viny_pr2_read",
    "Slam.Config.tiny_world",
    "Slam.Config.viny_world",
    "Slam.Config.viny_experimental_counterexample",
    "Slam.Config.gmapping_mit_counterexample",
    "Slam.Whole.skip_exceeding_ignored_counterexample",
    "Slam.Whole.launched_matcher",
    "Slam.Whole.configured_as"
   ],
   "note": "Composition of C27/C60 (reading), C72 (assembly) and C87 (running). The texts of the shipped files are copied character for character. Not covered by launch: maps of fixed size, the multi-resolution matcher, the drift detector, HC_FIXED, idle and the GMapping estimator (GMapping itself: C91)."
  },
  {
   "property": "C89",
   "status": "proved",
   "theorems": [
    "Slam.Matcher.frame_alignment_no_effect",
    "Slam.Matcher.frame_alignment_is_plain",
    "Slam.Matcher.frame_alignment_counterexample"
   ],
   "note": "The enumerator with the rotation of the frame, its constructor and prepare_lookup are modelled in full; the counterexample shows the expected behaviour fails."
  },
  {
   "property": "C90",
   "status": "proved",
   "theorems": [
    "Slam.Whole.gm_matching_is_match",
    "Slam.Whole.gown_message",
    "Slam.Whole.gown_run_is_run",
    "Slam.Whole.gown_start",
    "Slam.Whole.gown_particles",
    "Slam.Whole.gm_matching_total",
    "Slam.Whole.gm_match_near",
    "Slam.Whole.gown_run_total",
    "Slam.Whole.gown_demo_start",
    "Slam.Whole.remembered_value_counterexample",
    "Slam.Whole.created_first_round"
   ],
   "note": "Exact real arithmetic except the rounding of the score's quotient, which is a parameter (within [0, 1]; finitely many values and rnd 0 = 0 for totality). Random numbers are inputs."
  },
  {
   "property": "C91",
   "status": "proved",
   "theorems": [
    "Slam.Whole.gmapping_launches",
    "Slam.Whole.gmapping_needs_particles",
    "Slam.Whole.launched_gmapping_behaves",
    "Slam.Whole.launched_gmapping_total",
    "Slam.Whole.gleast_read"
   ],
   "note": "Composition of C72 (reading) and C90 (running). Random draws are inputs; the rounding of scores is a parameter."
  },
  {
   "property": "C92",
   "status": "proved",
   "theorems": [
    "Slam.Float.are_equal_finite",
    "Slam.Float.are_equal_refl",
    "Slam.Float.are_equal_comm",
    "Slam.Float.are_equal_special",
    "Slam.Float.less_finite",
    "Slam.Float.less_special",
    "Slam.Float.less_or_equal_finite",
    "Slam.Float.less_or_equal_special",
    "Slam.Float.infinite_score_counterexample",
    "Slam.Float.bound_value_spec",
    "Slam.Float.multiple_recognised",
    "Slam.Float.multiple_spec",
    "Slam.Float.comparisons_exact",
    "Slam.Float.rne_odd",
    "Slam.Float.are_equal_not_transitive_counterexample",
    "Slam.Float.multiple_counterexample",
    "Slam.Float.multiple_special",
    "Slam.Float.difference_antisymmetric",
    "Slam.Float.ordered_finite",
    "Slam.Float.ordered_special"
   ],
   "note": "IEEE doubles with rounding, overflow, infinities and NaN. The sign of zero is not modelled."
  },
  {
   "property": "C93",
   "status": "proved",
   "theorems": [
    "Slam.Whole.mach_map_probabilities",
    "Slam.Whole.mach_message",
    "Slam.Whole.mach_total",
    "Slam.Whole.own_is_mach",
    "Slam.Whole.mach_run_is_run",
    "Slam.Whole.idle_dead_reckoning",
    "Slam.Whole.idle_message",
    "Slam.Whole.fixed_message",
    "Slam.Whole.fixed_ends",
    "Slam.Whole.drift_message",
    "Slam.Whole.launched_any_behaves",
    "Slam.Whole.launched_any_matcher",
    "Slam.Whole.launched_any_starts",
    "Slam.Whole.launched_any_total",
    "Slam.Whole.launched_fixed_ends",
    "Slam.Whole.launch_is_any"
   ],
   "note": "All matchers of init_scan_matcher but the multi-resolution one (C15) inside the program."
  },
  {
   "property": "C94",
   "status": "proved",
   "theorems": [
    "Slam.Multires.branch_assertion_holds",
    "Slam.Multires.credibilist_search_keeps_bounds",
    "Slam.Multires.range_bound_monotone",
    "Slam.Multires.scores_monotone",
    "Slam.Multires.levels_monotone",
    "Slam.Multires.run_closed",
    "Slam.Multires.scores_exist",
    "Slam.Multires.one_point_score",
    "Slam.Multires.unknown_cell_abort_counterexample",
    "Slam.Multires.empty_scan_aborts"
   ],
   "note": "Exact arithmetic. Prerotated requests with the max estimate, as the multi-resolution matcher makes them."
  },
  {
   "property": "C95",
   "status": "proved",
   "theorems": [
    "Slam.Whole.mr_message",
    "Slam.Whole.mr_map_probabilities",
    "Slam.Whole.mr_run_is_run",
    "Slam.Whole.mr_needs_points",
    "Slam.Whole.mr_search_ends",
    "Slam.Whole.mr_never_fails",
    "Slam.Whole.mr_total",
    "Slam.Multires.level_count",
    "Slam.Whole.same_estimator",
    "Slam.Whole.launched_mr_starts",
    "Slam.Whole.launched_mr_behaves",
    "Slam.Whole.window_fits",
    "Slam.Whole.launched_mr_never_fails",
    "Slam.Whole.launched_mr_total",
    "Slam.Whole.tiny_m3rsm_runs",
    "Slam.Whole.credibilist_m3rsm_runs"
   ],
   "note": "The program is a relation: the queue's order among nearly equal matches is not determined (slack 1e-7 by C15's comparator_top). Growing maps, estimator max, no drift detector; doubles are exact. Non-vacuity: a thousand messages on the configuration of TinySLAM with config/common/bf_m3rsm.properties, Whole/MultiresShipped.lean."
  },
  {
   "property": "C96",
   "status": "proved",
   "theorems": [
    "Slam.Whole.fixed_as_growing",
    "Slam.Whole.same_alike",
    "Slam.Whole.fixed_success_as_growing",
    "Slam.Whole.fixed_stops_outside",
    "Slam.Whole.launched_fixed_as_growing",
    "Slam.Whole.launched_plain_success",
    "Slam.Whole.fixed_plain_holds",
    "Slam.Whole.fixed_lazy_holds",
    "Slam.Whole.fixed_plain_refuses",
    "Slam.Matcher.monte_carlo_local",
    "Slam.Matcher.drift_near"
   ],
   "note": "Maps of fixed size; same_alike turns the simulation relation into the observable one (Alike). Instances in Whole/FixedDemo."
  },
  {
   "property": "C97",
   "status": "proved",
   "theorems": [
    "Slam.Runner.properties_read",
    "Slam.Runner.runner_exit",
    "Slam.Runner.runner_files",
    "Slam.Runner.runner_no_map",
    "Slam.Runner.runner_refuses",
    "Slam.Runner.runner_files_read",
    "Slam.Runner.verbose_only_talks",
    "Slam.Runner.runner_all_handled",
    "Slam.Runner.runner_single_total",
    "Slam.Runner.runner_fixed_total",
    "Slam.Runner.runner_single_probabilities",
    "Slam.Runner.runner_odometry_only",
    "Slam.Runner.runner_gmapping_total",
    "Slam.Runner.runner_gmapping_probabilities",
    "Slam.Runner.runner_tiny_mit"
   ],
   "note": "The bag library and the transform library are parameters; the table of sines is taken as exact (C42); the multi-resolution matcher is not put in; how much of the trajectory is in its file after an abort, and a trajectory file that is also the map file, are not modelled. Hypotheses shown to be met by a run over a two-scan bag with the shipped properties (Runner/Shipped.lean) and by a toy SLAM (Runner/Props.lean)."
  },
  {
   "property": "C98",
   "status": "proved",
   "theorems": [
    "Slam.Config.launch_assembles",
    "Slam.Config.node_init",
    "Slam.Config.node_assembles",
    "Slam.Config.common_launch",
    "Slam.Config.gmapping_mit_launch",
    "Slam.Config.credibilist_mit_launch",
    "Slam.Config.gmapping_wg_counterexample"
   ],
   "note": "launch_assembles: the three SLAMs from typed launch parameters and from a file; node_init/node_assembles: precedence of the file named by slam/config; the shipped launch files are the non-vacuity examples (names_exist: the enumerations assumed exist); the counterexample shows a shipped launch file whose node does not start."
  },
  {
   "property": "C99",
   "status": "proved",
   "theorems": [
    "Slam.Online.node_run",
    "Slam.Online.node_goes_on",
    "Slam.Online.node_skips",
    "Slam.Online.maps_apart",
    "Slam.Online.poses_are_trajectory",
    "Slam.Online.corrections_compose",
    "Slam.Online.maps_are_current",
    "Slam.Online.async_corrections",
    "Slam.Online.node_programs",
    "Slam.Online.online_single_total",
    "Slam.Online.online_single_grids",
    "Slam.Online.online_odometry_only",
    "Slam.Online.online_gmapping_total",
    "Slam.Online.online_common"
   ],
   "note": "node_* for any SLAM (interface Runner.Engine); online_* with the programs of C93 and C91 put in and made from launch parameters (C98); online_common for the shipped launch file. The queue of the message filter (which scans reach the callback) and the second thread of the correction publisher are outside a delivery: async_corrections links to the thread model of C48. The grid range theorem leaves out cells of the consistent-belief kind whose value is undefined (0/0)."
  },
  {
   "property": "C100",
   "status": "proved",
   "theorems": [
    "Slam.Matcher.hill_climbing_roams",
    "Slam.Matcher.fixed_roams",
    "Slam.Matcher.brute_force_roams",
    "Slam.Matcher.monte_carlo_roams",
    "Slam.Matcher.drift_roams",
    "Slam.Whole.roam_total",
    "Slam.Whole.assembled_any_total",
    "Slam.Whole.assembled_any_behaves",
    "Slam.Whole.launched_roam_total",
    "Slam.Online.runner_roam_total",
    "Slam.Online.online_roam_total",
    "Slam.Online.online_credibilist_total",
    "Slam.Online.online_credibilist_grids",
    "Slam.Online.online_credibilist"
   ],
   "note": "Loop bounds of the model are a parameter: the results do not depend on it from some bound on. The multi-resolution matcher is C95's."
  },
  {
   "property": "C101",
   "status": "proved",
   "theorems": [
    "Slam.Random.canonical_range",
    "Slam.Random.uniform_draws_unit",
    "Slam.Random.rv_sample",
    "Slam.Random.gaussian_two_draws",
    "Slam.Random.seeded_matching",
    "Slam.Random.seeded_on_map",
    "Slam.Random.seeded_slam_total",
    "Slam.Random.shipped_seeded",
    "Slam.Random.runner_seeded_total"
   ],
   "note": "Engine and distributions as libstdc++ implements them, in exact arithmetic; the model of mt19937 is checked against the standard's test value. Lively (the rejection loop of the library ends) is a hypothesis; it is shown satisfiable with a constant generator."
  },
  {
   "property": "C102",
   "status": "proved",
   "theorems": [
    "Slam.Random.seeded_filter_total",
    "Slam.Random.seeded_step",
    "Slam.Random.seeded_create",
    "Slam.Random.seeded_reach",
    "Slam.Random.particle_with_draws",
    "Slam.Random.resampled_from",
    "Slam.Random.same_rng_draw_alike",
    "Slam.Random.copies_draw_alike",
    "Slam.Random.message_copies_alike",
    "Slam.Random.guess_alternates",
    "Slam.Random.fresh_after_even",
    "Slam.Random.copies_spread_counterexample",
    "Slam.Random.demo_noise"
   ],
   "note": "Exact arithmetic; the generator is any function that hands out 32-bit numbers, with the proviso that rejection loops end (Lively)."
  },
  {
   "property": "C103",
   "status": "proved",
   "theorems": [
    "Slam.Random.gseeded_launches",
    "Slam.Random.gseeded_step",
    "Slam.Random.seeded_gmapping_total",
    "Slam.Random.gseeded_run_is_run",
    "Slam.Random.seeded_gmapping_behaves",
    "Slam.Random.seeded_gmapping_serves",
    "Slam.Random.runner_seeded_gmapping_total"
   ],
   "note": "Composition of C102 (particles with their generators), C90/C91 (GMapping running) and C97 (the runner). Arithmetic is exact; normal deviates as libstdc++ computes them from an engine of 32-bit words; the only hypothesis on the engine is that rejection loops end."
  },
  {
   "property": "C104",
   "status": "proved",
   "theorems": [
    "Slam.Runner.multires_runs",
    "Slam.Runner.runner_multires_message",
    "Slam.Runner.multires_serves",
    "Slam.Runner.runner_multires_total",
    "Slam.Runner.runner_multires_probabilities",
    "Slam.Runner.multires_exists",
    "Slam.Runner.looks_of_reading",
    "Slam.Runner.runner_tiny_m3rsm",
    "Slam.Online.node_multires",
    "Slam.Online.online_multires_total",
    "Slam.Online.online_credibilist_multires_total",
    "Slam.Online.online_multires_grids",
    "Slam.Online.online_credibilist_m3rsm"
   ],
   "note": "A program is any Chooser that is Faithful to the relation of C95. Faithful False: the assertion of branch does not stop the program; for the credibilist node the theorem holds with assertions on. Of a configured SLAM with TinySLAM cells the assertion can fail (C94, unknown_cell_abort_counterexample)."
  },
  {
   "property": "C105",
   "status": "proved",
   "theorems": [
    "Slam.Random.online_gmapping_mit",
    "Slam.Random.online_seeded_common",
    "Slam.Random.online_seeded_gmapping_total",
    "Slam.Random.online_seeded_total",
    "Slam.Random.online_seeded_credibilist_total",
    "Slam.Random.node_seeded_gmapping",
    "Slam.Random.online_seeded_gmapping_grids"
   ],
   "note": "Exact arithmetic; that no rejection loop is endless is the hypothesis Lively, as in C101-C103. For the nodes with the Monte Carlo matcher (whose other matchers loop until they are satisfied) the statement is: with every bound on iterations from some bound on. GMapping: scores are rounded to finitely many values, as doubles are."
  },
  {
   "property": "C106",
   "status": "proved",
   "theorems": [
    "Slam.GraphSlam.graph_slam_history",
    "Slam.GraphSlam.node_times_unique",
    "Slam.GraphSlam.moves_total",
    "Slam.GraphSlam.graph_slam_shift",
    "Slam.GraphSlam.raster_total",
    "Slam.GraphSlam.estimate_total",
    "Slam.GraphSlam.graph_slam_total",
    "Slam.GraphSlam.refinement_offset",
    "Slam.GraphSlam.refinement_aligned_iff",
    "Slam.GraphSlam.refinement_frame_counterexample",
    "Slam.GraphSlam.node_times_signed_counterexample",
    "Slam.GraphSlam.idle_suits",
    "Slam.GraphSlam.monte_carlo_suits",
    "Slam.GraphSlam.demo_total",
    "Slam.GraphSlam.raster_shows"
   ],
   "note": "Totality assumes an estimator whose answers are valid (the constant one) because plain cells keep invalid estimations. NodeTimes, Small, stretch and moves are the specification of when nodes are created. Exact arithmetic."
  },
  {
   "property": "C107",
   "status": "proved",
   "theorems": [
    "Slam.Float.message_cache_rounded",
    "Slam.Float.beam_angle_counterexample",
    "Slam.Float.msg2scan_exact",
    "Slam.Float.provider_exact"
   ],
   "note": "Rounded model linked to the exact one; C library accuracy is a hypothesis; non-vacuity with IEEE rounding in TrigDemo."
  },
  {
   "property": "C108",
   "status": "proved",
   "theorems": [
    "Slam.Float.beam_cells_rounded"
   ],
   "note": "Builds on C107 and the rounded grid arithmetic of C76; example computes a cell with IEEE rounding."
  },
  {
   "property": "C109",
   "status": "proved",
   "theorems": [
    "Slam.Float.odometry_rounded",
    "Slam.Float.dead_reckoning_exact",
    "Slam.Float.return_counterexample",
    "Slam.Float.tracks_exact"
   ],
   "note": "Error bound for any history, exactness on lattices, counterexample for returning."
  },
  {
   "property": "C110",
   "status": "proved",
   "theorems": [
    "Slam.GraphSlam.graph_node_run",
    "Slam.GraphSlam.graph_node_goes_on",
    "Slam.GraphSlam.graphs_apart",
    "Slam.GraphSlam.node_shown_at",
    "Slam.GraphSlam.graph_node_total",
    "Slam.GraphSlam.graph_main_shipped",
    "Slam.GraphSlam.demo_node_total",
    "Slam.GraphSlam.graph_climb_total",
    "Slam.GraphSlam.graph_node_shipped_total",
    "Slam.Matcher.hill_climbing_reads"
   ],
   "note": "Specification: GRow, lastShown, Stops, GSends, GRows in GraphSlam/NodeProps. The node is switched off in CMakeLists.txt; the world class is taken with the current base class, as C106."
  },
  {
   "property": "C111",
   "status": "proved",
   "theorems": [
    "Slam.Matcher.hill_climbing_looks",
    "Slam.Matcher.fixed_looks",
    "Slam.Matcher.brute_force_looks",
    "Slam.Matcher.drift_looks",
    "Slam.Matcher.climb_tested",
    "Slam.Whole.fixed_roam_total",
    "Slam.Whole.launched_fixed_roams"
   ],
   "note": "LooksWithin states what a matcher reads; launched_fixed_roams speaks of the program built from a property table with plain or lazily tiled maps, next to the one on the growing map. Instances in Whole/FixedRoamDemo.lean."
  },
  {
   "property": "C112",
   "status": "proved",
   "theorems": [
    "Slam.Matcher.enum_stays_put",
    "Slam.Matcher.idle_stays_put",
    "Slam.Matcher.fixed_stays_put",
    "Slam.Matcher.drift_stays_put",
    "Slam.Whole.perfect_fit_follows_odometry",
    "Slam.Whole.standing_still_clear_view",
    "Slam.Whole.launched_perfect_fit",
    "Slam.Whole.launched_standing_still"
   ],
   "note": "PerfectFit (the fit) and ClearView (the scan) are stated over scores and beams, not over the matcher; the runs are hypotheses of the theorems (that they exist is C93/C100). An instance with 100 handled messages in Whole/StillDemo.lean."
  },
  {
   "property": "C113",
   "status": "proved",
   "theorems": [
    "Slam.Whole.gmapping_cold_start",
    "Slam.Whole.gmapping_first_scan",
    "Slam.Whole.launched_cold_start",
    "Slam.Random.seeded_cold_start"
   ],
   "note": "gone (the odometry's way) and Short (less than a step) are defined over the odometry alone. The filter's list of insertions is tied to the map by C81 (gmapping_map_is_log). Instances: a scan not used and one inserted twice (Whole/ColdStart), thirty particles with generators over 80 cm (Random/ColdStartDemo)."
  },
  {
   "property": "C114",
   "status": "proved",
   "theorems": [
    "Slam.Whole.gmapping_still",
    "Slam.Whole.gmapping_still_shows",
    "Slam.Whole.gmapping_still_settles",
    "Slam.Whole.last_heaviest_unique",
    "Slam.Whole.cold_then_standing",
    "Slam.Whole.gmapping_stops"
   ],
   "note": "Verif/Whole/GmStill.lean, on the model Verif/Whole/Gmapping.lean; spec: Resting, Eager, Calm, Standing, Still, Worn, LastHeaviest, Fair. Instance: two particles launched, a metre driven, then up to a hundred scans standing still. Exact arithmetic: in doubles the weight of the marked particle underflows to 0, which changes nothing here."
  },
  {
   "property": "C115",
   "status": "proved",
   "theorems": [
    "Slam.Whole.gmapping_first_loses",
    "Slam.Whole.blank_match",
    "Slam.Whole.nan_for_ever",
    "Slam.Whole.launched_first_loses"
   ],
   "note": "Verif/Whole/FirstScan.lean, on the models Verif/Whole/GmappingOwn.lean and GmappingLaunch.lean; spec: Lost, FirstReached, AllNaN. Instance in Verif/Whole/FirstScanDemo.lean: one particle, a metre driven, then up to fifty scans standing still. NaN is none in the model; whether the score is 0 or NaN depends on there being a usable point."
  },
  {
   "property": "C116",
   "status": "proved",
   "theorems": [
    "Slam.Whole.gmapping_own_still",
    "Slam.Whole.gmapping_own_still_shows",
    "Slam.Whole.gmapping_one_ahead",
    "Slam.Whole.gmapping_one_ahead_shows",
    "Slam.Whole.launched_one_ahead",
    "Slam.Whole.nan_shows_last"
   ],
   "note": "Verif/Whole/GmOwnStill.lean, on the models Verif/Whole/GmappingOwn.lean and GmappingLaunch.lean; spec: Kept, Sees, and Standing, Worn, LastHeaviest of C114, AllNaN of C115. Instance in Verif/Whole/GmOwnStillDemo.lean: two particles, 95 centimetres driven, then up to a hundred scans standing still. Exact arithmetic but for the score, which is rounded."
  },
  {
   "property": "C117",
   "status": "proved",
   "theorems": [
    "Slam.Whole.launched_lone",
    "Slam.Whole.lone_begins",
    "Slam.Whole.lone_handle",
    "Slam.Whole.lone_is_plain",
    "Slam.Whole.lone_no_chance"
   ],
   "note": "Verif/Whole/GmLone.lean, on the models Verif/Whole/GmappingOwn.lean and GmappingLaunch.lean; spec: Plain, Plain.handle, carried, Lone (the matcher and append_scan are those of the model, shared by both sides). Instance: the one of C115."
  },
  {
   "property": "C118",
   "status": "proved",
   "theorems": [
    "Slam.Whole.launched_two",
    "Slam.Whole.pair_run",
    "Slam.Whole.pair_message",
    "Slam.Particle.two_keep",
    "Slam.Particle.three_may",
    "Slam.Float.two_keep_rounded"
   ],
   "note": "Verif/Whole/GmPair.lean and Verif/Float/Two.lean, on the models Verif/Particle/Model.lean, Verif/Whole/GmappingOwn.lean and GmappingLaunch.lean, and on normalizeF, requiredF of Verif/Float/Weights.lean (no overflow); spec: SameButSamples, SameParticles, and gone of C113. Instances: the two particles of C90 with up to a hundred messages and any random numbers; the started GMapping of C115."
  },
  {
   "property": "C119",
   "status": "proved",
   "theorems": [
    "Slam.Whole.launched_shares",
    "Slam.Whole.pair_shares",
    "Slam.Whole.pair_weights",
    "Slam.Float.weights_ratio_rounded",
    "Slam.Float.heaviest_rounded",
    "Slam.Float.weighF_normalized",
    "Slam.Float.weigh_exact"
   ],
   "note": "Verif/Whole/GmShare.lean, on the models Verif/Particle/Model.lean, Verif/Whole/GmappingOwn.lean and GmappingLaunch.lean; spec: Factor (with MatchedOn of C90), Earned, share. Exact arithmetic for the program; Verif/Float/Share.lean (weighF, Regular, scoreProduct) for the weights in double, no overflow. Instances: the two particles of C90; the started GMapping of C115."
  }
 ]
}