{
 "claims": [
  {
   "property": "C01",
   "status": "proved",
   "theorems": [
    "TR.c01_revert_inverse",
    "TR.c01_revert_revert",
    "TR.c01_bijective",
    "TR.c01_orient_name_roundtrip"
   ],
   "note": "revert is a two-sided inverse for all 8 orientations; coordinates unbounded"
  },
  {
   "property": "C02",
   "status": "proved",
   "theorems": [
    "TR.c02_rigid",
    "TR.c02_box_transform_points",
    "TR.c02_box_transform_dims",
    "TR.c02_overlap_invariant"
   ],
   "note": ""
  },
  {
   "property": "C03",
   "status": "proved",
   "theorems": [
    "TR.c03_placed_outline",
    "TR.c03_large_origin_misplaced"
   ],
   "note": "proved for any LEF ORIGIN not larger than SIZE; the second theorem shows the code misplaces a macro whose ORIGIN exceeds SIZE"
  },
  {
   "property": "C04",
   "status": "proved",
   "theorems": [
    "TR.c04_set_normalises",
    "TR.c04_contains_point",
    "TR.c04_contains_box",
    "TR.c04_overlaps_closed",
    "TR.c04_overlaps_open",
    "TR.c04_bloat",
    "TR.c04_negative_bloat_flips"
   ],
   "note": ""
  },
  {
   "property": "C05",
   "status": "proved",
   "theorems": [
    "TR.c05_point_order",
    "TR.c05_box_order",
    "TR.c05_maze_index_order"
   ],
   "note": ""
  },
  {
   "property": "C06",
   "status": "proved",
   "theorems": [
    "TR.c06_strict_weak",
    "TR.c06_top_contract",
    "TR.c06_top",
    "TR.c06_buffer"
   ],
   "note": "std::priority_queue itself is represented by its contract: a member that no member beats"
  },
  {
   "property": "C07",
   "status": "proved",
   "theorems": [
    "TR.c07_storage_injective",
    "TR.c07_valid_iff"
   ],
   "note": ""
  },
  {
   "property": "C08",
   "status": "proved",
   "theorems": [
    "TR.c08_single_attribute",
    "TR.c08_history",
    "TR.c08_queries",
    "TR.c08_decay_fallthrough_witness"
   ],
   "note": "all word-writing calls except the unused decayMarkerCost(dir,factor), of which the property is false (witness)"
  },
  {
   "property": "C09",
   "status": "proved",
   "theorems": [
    "TR.c09_symmetric",
    "TR.c09_add",
    "TR.c09_add_succeeds_iff",
    "TR.c09_remove",
    "TR.c09_step",
    "TR.c09_history",
    "TR.c09_edges_stay_on_grid",
    "TR.c09_guarded_ops_stay_inside"
   ],
   "note": ""
  },
  {
   "property": "C10",
   "status": "partial",
   "theorems": [
    "TR.c10_counter_exact_partial",
    "TR.c10_present_iff_partial",
    "TR.c10_overflow_vanishes"
   ],
   "note": "proved while counters stay within 0..255; the full property is false of the code: addToBits saturates at 256, which is stored as 0 (c10_overflow_vanishes)"
  },
  {
   "property": "C11",
   "status": "proved",
   "theorems": [
    "TR.c11_step",
    "TR.c11_labels_read_back",
    "TR.c11_words_untouched"
   ],
   "note": ""
  },
  {
   "property": "C12",
   "status": "proved",
   "theorems": [
    "TR.c12_tracks_exact",
    "TR.c12_coord_vector"
   ],
   "note": ""
  },
  {
   "property": "C13",
   "status": "proved",
   "theorems": [
    "TR.c13_maze_index_of_member",
    "TR.c13_has_maze_index",
    "TR.c13_index_box",
    "TR.c13_index_box_empty",
    "TR.c13_ta_track_range"
   ],
   "note": ""
  },
  {
   "property": "C14",
   "status": "proved",
   "theorems": [
    "TR.c14_path_is_routable"
   ],
   "note": ""
  },
  {
   "property": "C15",
   "status": "proved",
   "theorems": [
    "TR.c15_search_terminates"
   ],
   "note": ""
  },
  {
   "property": "C16",
   "status": "proved",
   "theorems": [
    "TR.c16_finds_iff_reachable"
   ],
   "note": ""
  },
  {
   "property": "C17",
   "status": "proved",
   "theorems": [
    "TR.c17_path_simple"
   ],
   "note": ""
  },
  {
   "property": "C18",
   "status": "proved",
   "theorems": [
    "TR.c18_success_connects_all_pins"
   ],
   "note": "pins connect through shapes that share maze nodes; patches for minimum area are not modelled"
  },
  {
   "property": "C19",
   "status": "proved",
   "theorems": [
    "TR.c19_shapes_well_formed"
   ],
   "note": "cut layer is the lower routing layer plus one, as in the code"
  },
  {
   "property": "C20",
   "status": "proved",
   "theorems": [
    "TR.c20_net_routing_terminates",
    "TR.c20_failure_means_unreachable",
    "TR.c20_reachable_pins_get_routed"
   ],
   "note": "coordinates assumed within 2^28 so that the 32-bit distance cannot reach INT_MAX"
  },
  {
   "property": "C21",
   "status": "proved",
   "theorems": [
    "TR.c21_index_in_range_and_contains",
    "TR.c21_center_inside",
    "TR.c21_center_roundtrip"
   ],
   "note": "for GCell patterns that fit the die (AxisFits)"
  },
  {
   "property": "C22",
   "status": "proved",
   "theorems": [
    "TR.c22_gcells_tile_die"
   ],
   "note": ""
  },
  {
   "property": "C23",
   "status": "proved",
   "theorems": [
    "TR.c23_workers_disjoint",
    "TR.c23_gcell_in_exactly_one_worker",
    "TR.c23_workers_cover_die",
    "TR.c23_offset_too_negative"
   ],
   "note": "needs -clip < offset, true of every call in the code; witness that it is needed"
  },
  {
   "property": "C24",
   "status": "proved",
   "theorems": [
    "TR.c24_batches_partition",
    "TR.c24_batch_separated",
    "TR.c24_extended_boxes_disjoint"
   ],
   "note": ""
  },
  {
   "property": "C25",
   "status": "proved",
   "theorems": [
    "TR.c25_outside_kept",
    "TR.c25_inside_removed",
    "TR.c25_inside_removed_pts",
    "TR.c25_cut_ends",
    "TR.c25_boundary_points",
    "TR.c25_unmodified",
    "TR.c25_vias",
    "TR.c25_patches"
   ],
   "note": "in the first pass wires along the upper and right border belong to the neighbour"
  },
  {
   "property": "C26",
   "status": "proved",
   "theorems": [
    "TR.c26_merge",
    "TR.c26_merge_happens",
    "TR.c26_end_styles",
    "TR.c26_centre_lines_kept",
    "TR.c26_rest_kept",
    "TR.c26_overlap_style_lost"
   ],
   "note": "counterexample for wires that overlap at the point"
  },
  {
   "property": "C27",
   "status": "proved",
   "theorems": [
    "TR.c27_no_worse",
    "TR.c27_mode_one",
    "TR.c27_nothing_to_repair",
    "TR.c27_total",
    "TR.c27_sequence",
    "TR.c27_shared_violation_grows"
   ],
   "note": "workers of a batch that share a violation can increase the total (counterexample proved)"
  },
  {
   "property": "C28",
   "status": "proved",
   "theorems": [
    "TR.c28_store",
    "TR.c28_no_checks"
   ],
   "note": ""
  },
  {
   "property": "C29",
   "status": "proved",
   "theorems": [
    "TR.c29_store",
    "TR.c29_answer",
    "TR.c29_keeps"
   ],
   "note": ""
  },
  {
   "property": "C30",
   "status": "proved",
   "theorems": [
    "TR.c30_merge_preserves_coverage",
    "TR.c30_merged_wires_disjoint",
    "TR.c30_style_from_other_group"
   ],
   "note": "the third theorem is a finding: end styles may come from an unrelated wire"
  },
  {
   "property": "C31",
   "status": "proved",
   "theorems": [
    "TR.c31_split_lookup_exact",
    "TR.c31_node_map_exact"
   ],
   "note": ""
  },
  {
   "property": "C32",
   "status": "proved",
   "theorems": [
    "TR.c32_check_iff_connected",
    "TR.c32_net_broken_iff",
    "TR.c32_one_pin_fails",
    "TR.c32_untouched_pins_ignored"
   ],
   "note": "meeting means: both have metal at a point where some shape ends; crossings inside both wires are not counted by the code. Findings: one-pin nets fail, untouched pins are ignored"
  },
  {
   "property": "C33",
   "status": "proved",
   "theorems": [
    "TR.c33_kept_connects"
   ],
   "note": ""
  },
  {
   "property": "C34",
   "status": "proved",
   "theorems": [
    "TR.c34_order_covers",
    "TR.c34_best_track",
    "TR.c34_best_available",
    "TR.c34_track_found",
    "TR.c34_available_tracks",
    "TR.c34_empty_panel_takes_outside_track"
   ],
   "note": "for a non-empty range of tracks; on an empty range a track outside the panel may be taken"
  },
  {
   "property": "C35",
   "status": "partial",
   "theorems": [
    "TR.c35_recorded_cost_partial",
    "TR.c35_first_pass_records_other_track",
    "TR.c35_later_pass_records_other_track"
   ],
   "note": "false of the code: the cost of the last track tried is recorded"
  },
  {
   "property": "C36",
   "status": "proved",
   "theorems": [
    "TR.c36_assignment_terminates"
   ],
   "note": ""
  },
  {
   "property": "C37",
   "status": "proved",
   "theorems": [
    "TR.c37_lookup2",
    "TR.c37_decrement_defined",
    "TR.c37_lookup1",
    "TR.c37_find",
    "TR.c37_find_mono",
    "TR.c37_find_bounds"
   ],
   "note": ""
  },
  {
   "property": "C38",
   "status": "partial",
   "theorems": [
    "TR.c38_sorted_rows_partial",
    "TR.c38_order_not_asymmetric",
    "TR.c38_never_too_small_partial",
    "TR.c38_row_too_wide"
   ],
   "note": "the row order is not a strict weak order, so the property holds only for rows sorted in both columns; otherwise a row that does not apply may be chosen"
  },
  {
   "property": "C39",
   "status": "proved",
   "theorems": [
    "TR.c39_entries",
    "TR.c39_included",
    "TR.c39_via2via_query",
    "TR.c39_turn_query",
    "TR.c39_line_query"
   ],
   "note": ""
  },
  {
   "property": "C40",
   "status": "proved",
   "theorems": [
    "TR.c40_reported_iff",
    "TR.c40_overflow",
    "TR.c40_overflow_example"
   ],
   "note": "32-bit squares: the exact overflow condition is proved; c41_fits shows it cannot occur with spacings up to 32767"
  },
  {
   "property": "C41",
   "status": "proved",
   "theorems": [
    "TR.c41_window_iff",
    "TR.c41_nothing_missed",
    "TR.c41_fits",
    "TR.c41_same_net_missed"
   ],
   "note": "needs the same-net spacing not to exceed the largest table entry; counterexample proved otherwise"
  },
  {
   "property": "C42",
   "status": "proved",
   "theorems": [
    "TR.c42_merge_coverage",
    "TR.c42_base_exact",
    "TR.c42_merge_separated"
   ],
   "note": "the code also adds touching guides (C48); these lie directly above or below guide GCells"
  },
  {
   "property": "C43",
   "status": "proved",
   "theorems": [
    "TR.c43_search_exact",
    "TR.c43_kept_connect",
    "TR.c43_one_pin_keeps_nothing"
   ],
   "note": "exact for the first attempt; the last theorem is a finding"
  },
  {
   "property": "C44",
   "status": "proved",
   "theorems": [
    "TR.c44_ripup_restores",
    "TR.c44_add_then_remove"
   ],
   "note": "for counters that do not saturate, as stated in the property"
  },
  {
   "property": "C45",
   "status": "proved",
   "theorems": [
    "TR.c45_queue_terminates",
    "TR.c45_reroute_limit",
    "TR.c45_stale_skipped"
   ],
   "note": "with ripup mode 1 or 2 a net is routed once even if the limit is 0"
  },
  {
   "property": "C46",
   "status": "proved",
   "theorems": [
    "TR.c46_ta_panels_h",
    "TR.c46_ta_panels_v"
   ],
   "note": ""
  },
  {
   "property": "C47",
   "status": "proved",
   "theorems": [
    "TR.c47_cleanup_keeps_connection",
    "TR.c47_cleanup_adds_nothing",
    "TR.c47_not_idempotent"
   ],
   "note": "the third theorem is a finding: a second run of the pass can reject the net the first one produced"
  },
  {
   "property": "C48",
   "status": "proved",
   "theorems": [
    "TR.c48_touching_connected"
   ],
   "note": ""
  },
  {
   "property": "C49",
   "status": "proved",
   "theorems": [
    "TR.c49_split_ends",
    "TR.c49_split_complete"
   ],
   "note": ""
  },
  {
   "property": "C50",
   "status": "proved",
   "theorems": [
    "TR.c50_accepted_connected",
    "TR.c50_connected_accepted",
    "TR.c50_rejected_disconnected"
   ],
   "note": ""
  },
  {
   "property": "C51",
   "status": "proved",
   "theorems": [
    "TR.c51_violations_retried"
   ],
   "note": ""
  },
  {
   "property": "C52",
   "status": "proved",
   "theorems": [
    "TR.c52_every_wire_handled",
    "TR.c52_first_pass_once"
   ],
   "note": ""
  },
  {
   "property": "C53",
   "status": "proved",
   "theorems": [
    "TR.c53_forbidden_iff",
    "TR.c53_inside_forbidden",
    "TR.c53_outside_allowed"
   ],
   "note": ""
  },
  {
   "property": "C54",
   "status": "partial",
   "theorems": [
    "TR.c54_metal_spacing",
    "TR.c54_cut_spacing",
    "TR.c54_cut_spacing_same_net",
    "TR.c54_cut_spacing_layers",
    "TR.c54_stacked_allowed",
    "TR.c54_other_layer_x_partial",
    "TR.c54_other_layer_y_missed",
    "TR.c54_min_cut_order_dependent"
   ],
   "note": "false of the code along y for the shapes on the other layer (counterexample proved)"
  },
  {
   "property": "C55",
   "status": "proved",
   "theorems": [
    "TR.c55_turn_spacing",
    "TR.c55_line_spacing"
   ],
   "note": ""
  },
  {
   "property": "C56",
   "status": "proved",
   "theorems": [
    "TR.c56_same_outside",
    "TR.c56_loaded_inside",
    "TR.c56_cover",
    "TR.c56_round_trip",
    "TR.c56_vias_round_trip",
    "TR.c56_zero_length_lost"
   ],
   "note": "zero-length wires on the border are lost (counterexample proved)"
  },
  {
   "property": "C57",
   "status": "proved",
   "theorems": [
    "TR.c57_layer",
    "TR.c57_symmetric",
    "TR.c57_target_complete"
   ],
   "note": ""
  },
  {
   "property": "C58",
   "status": "proved",
   "theorems": [
    "TR.c58_short_iff",
    "TR.c58_weak_joint_iff"
   ],
   "note": ""
  },
  {
   "property": "C59",
   "status": "proved",
   "theorems": [
    "TR.c59_min_step_iff",
    "TR.c59_typed_never",
    "TR.c59_helper_iff",
    "TR.c59_one_long_edge"
   ],
   "note": ""
  },
  {
   "property": "C60",
   "status": "proved",
   "theorems": [
    "TR.c60_min_width_iff",
    "TR.c60_min_width_where",
    "TR.c60_off_grid_iff",
    "TR.c60_grid_zero"
   ],
   "note": "the slices that boost::polygon cuts a polygon into are assumed to be maximal along the cut direction"
  },
  {
   "property": "C61",
   "status": "proved",
   "theorems": [
    "TR.c61_windows",
    "TR.c61_end_of_line",
    "TR.c61_sound",
    "TR.c61_complete",
    "TR.c61_exact",
    "TR.c61_order_dependent"
   ],
   "note": "End-of-line rules: windows, end-of-line edges, soundness, completeness and exactness for every query order; the query-order dependence for gaps between fixed shapes is proved with a witness. The shapes (outline edges, maximal rectangles) are given to the model."
  },
  {
   "property": "C62",
   "status": "proved",
   "theorems": [
    "TR.c62_crowded_iff",
    "TR.c62_pair_iff",
    "TR.c62_rule_iff",
    "TR.c62_layer_iff",
    "TR.c62_target_complete",
    "TR.c62_target_incomplete",
    "TR.c62_area_ignored",
    "TR.c62_same_net_applies_to_others"
   ],
   "note": "LEF 5.8 cut spacing without LEF58 properties; squares are unbounded integers in this model"
  },
  {
   "property": "C63",
   "status": "proved",
   "theorems": [
    "TR.c63_pair_iff",
    "TR.c63_rule_iff",
    "TR.c63_same_net_missed",
    "TR.c62_layer_iff"
   ],
   "note": ""
  },
  {
   "property": "C64",
   "status": "proved",
   "theorems": [
    "TR.c64_coords_iff",
    "TR.c64_track_lost"
   ],
   "note": "the tracks are assumed to lie on the manufacturing grid; without that the property fails, shown with a witness"
  },
  {
   "property": "C65",
   "status": "proved",
   "theorems": [
    "TR.c65_share_iff",
    "TR.c65_tracks_agree",
    "TR.c65_negative_origin",
    "TR.c65_partly_covered"
   ],
   "note": "the two cases in which the sharing is wrong are proved with witnesses"
  },
  {
   "property": "C66",
   "status": "proved",
   "theorems": [
    "TR.c66_points_exact"
   ],
   "note": "the maximal rectangles of the pin are given to the model"
  },
  {
   "property": "C67",
   "status": "proved",
   "theorems": [
    "TR.c67_checked",
    "TR.c67_rank",
    "TR.c67_stored",
    "TR.c67_via_not_inside"
   ],
   "note": "the geometry checker is an arbitrary function"
  },
  {
   "property": "C68",
   "status": "proved",
   "theorems": [
    "TR.c68_row_optimal",
    "TR.c68_row_none",
    "TR.c68_clean_found",
    "TR.c68_rows"
   ],
   "note": "costs are unbounded integers; the checker is an arbitrary function of the pair of patterns"
  },
  {
   "property": "C69",
   "status": "proved",
   "theorems": [
    "TR.c69_patterns",
    "TR.c69_pins",
    "TR.c69_no_via",
    "TR.c69_found",
    "TR.c69_single_pin",
    "TR.c69_missing_pin",
    "TR.c69_window_last",
    "TR.c69_window_misses"
   ],
   "note": "the checker is an arbitrary function of the vias given to it; faults are proved with witnesses"
  },
  {
   "property": "C70",
   "status": "proved",
   "theorems": [
    "TR.c70_subnets",
    "TR.c70_partition",
    "TR.c70_patch_apart",
    "TR.c70_overlap_missed"
   ],
   "note": "for wires of positive length that do not overlap along a line; the two exceptions are proved with witnesses"
  },
  {
   "property": "C71",
   "status": "proved",
   "theorems": [
    "TR.c71_reroute",
    "TR.c71_border",
    "TR.c71_worker"
   ],
   "note": "that the router connects the terminals of each subnet is a hypothesis here (C18, C19 give it for the routing of one net)"
  },
  {
   "property": "C72",
   "status": "proved",
   "theorems": [
    "TR.c72_planar",
    "TR.c72_planar_only",
    "TR.c72_clear",
    "TR.c72_narrow_missed",
    "TR.spcMono_of"
   ],
   "note": "the exception for narrow shapes is proved with a witness"
  },
  {
   "property": "C73",
   "status": "proved",
   "theorems": [
    "TR.c73_via",
    "TR.c73_via_only",
    "TR.c73_clear",
    "TR.c73_patch_length",
    "TR.c73_special_via_missed",
    "TR.c73_within_missed",
    "TR.c73_which_via"
   ],
   "note": "the two conditions are necessary: witnesses"
  },
  {
   "property": "C74",
   "status": "proved",
   "theorems": [
    "TR.c74_planar",
    "TR.c74_via",
    "TR.c74_only"
   ],
   "note": "for prescribed vias not larger than the default via"
  },
  {
   "property": "C75",
   "status": "proved",
   "theorems": [
    "TR.c75_cut",
    "TR.c75_cut_only",
    "TR.c75_inter",
    "TR.c75_inter_only",
    "TR.c75_which_rule"
   ],
   "note": ""
  },
  {
   "property": "C76",
   "status": "proved",
   "theorems": [
    "TR.c76_min_cut",
    "TR.c76_beside_missed"
   ],
   "note": ""
  },
  {
   "property": "C77",
   "status": "proved",
   "theorems": [
    "TR.c77_counter",
    "TR.c77_order",
    "TR.c77_free_wire",
    "TR.c77_free_via",
    "TR.c77_free_cut",
    "TR.c77_free_inter",
    "TR.c77_wire_line_ends",
    "TR.c77_other_line_ends"
   ],
   "note": "counters that exceed 255 lose exactness (C10)"
  },
  {
   "property": "C78",
   "status": "proved",
   "theorems": [
    "TR.c78_in_grid",
    "TR.c78_only_drc",
    "TR.c78_outside",
    "TR.c78_through"
   ],
   "note": ""
  },
  {
   "property": "C79",
   "status": "proved",
   "theorems": [
    "TR.c79_block_planar",
    "TR.c79_block_via",
    "TR.c79_unblock",
    "TR.c79_adjacent_cuts"
   ],
   "note": "the region query is modelled by its contract"
  },
  {
   "property": "C80",
   "status": "proved",
   "theorems": [
    "TR.c80_round_trip",
    "TR.c80_own_routes"
   ],
   "note": "the text level of DEF is not modelled"
  },
  {
   "property": "C81",
   "status": "proved",
   "theorems": [
    "TR.c81_lines",
    "TR.c81_wires_ok",
    "TR.c81_once"
   ],
   "note": ""
  },
  {
   "property": "C82",
   "status": "proved",
   "theorems": [
    "TR.c82_metal",
    "TR.c82_file",
    "TR.c82_ends",
    "TR.c82_extension_lost",
    "TR.c82_point_wire_lost"
   ],
   "note": ""
  },
  {
   "property": "C83",
   "status": "proved",
   "theorems": [
    "TR.c83_vias",
    "TR.c83_vias_do_not_split",
    "TR.c83_crossing_missed"
   ],
   "note": ""
  },
  {
   "property": "C84",
   "status": "proved",
   "theorems": [
    "TR.c84_direction",
    "TR.c84_via",
    "TR.c84_first_last",
    "TR.c84_bend_lost"
   ],
   "note": ""
  },
  {
   "property": "C85",
   "status": "proved",
   "theorems": [
    "TR.c85_coordinates",
    "TR.c85_labels_clear",
    "TR.c85_heights"
   ],
   "note": ""
  },
  {
   "property": "C86",
   "status": "proved",
   "theorems": [
    "TR.c86_east",
    "TR.c86_north",
    "TR.c86_up"
   ],
   "note": ""
  },
  {
   "property": "C87",
   "status": "proved",
   "theorems": [
    "TR.c87_east",
    "TR.c87_north",
    "TR.c87_up"
   ],
   "note": ""
  },
  {
   "property": "C88",
   "status": "proved",
   "theorems": [
    "TR.c88_wire",
    "TR.c88_via",
    "TR.c88_access_point"
   ],
   "note": ""
  },
  {
   "property": "C89",
   "status": "proved",
   "theorems": [
    "TR.c89_horizontal_wire",
    "TR.c89_vertical_wire",
    "TR.c89_via",
    "TR.c89_access_point",
    "TR.c89_same_direction_no_edge"
   ],
   "note": "the conditions on the layers are the ones under which the edges exist (C86)"
  },
  {
   "property": "C90",
   "status": "proved",
   "theorems": [
    "TR.c90_track_flags",
    "TR.c90_restricted_layers_not_seen"
   ],
   "note": "at the lowest coordinate the code reads the marks of another node"
  },
  {
   "property": "C91",
   "status": "proved",
   "theorems": [
    "TR.c91_forbidden_lengths",
    "TR.c91_cost_of_path",
    "TR.c91_via_after_turn_not_penalised"
   ],
   "note": ""
  },
  {
   "property": "C92",
   "status": "proved",
   "theorems": [
    "TR.c92_estimate_is_lower_bound",
    "TR.c92_zero_at_pin",
    "TR.c92_estimate_for_one_point"
   ],
   "note": ""
  },
  {
   "property": "C93",
   "status": "proved",
   "theorems": [
    "TR.c93_near_optimal",
    "TR.c93_without_tables",
    "TR.c93_not_optimal"
   ],
   "note": ""
  },
  {
   "property": "C94",
   "status": "proved",
   "theorems": [
    "TR.c94_costs_do_not_matter"
   ],
   "note": ""
  },
  {
   "property": "C95",
   "status": "proved",
   "theorems": [
    "TR.c95_one_patch_per_short_run",
    "TR.c95_points"
   ],
   "note": ""
  },
  {
   "property": "C96",
   "status": "proved",
   "theorems": [
    "TR.c96_half_via",
    "TR.c96_minimum_area_reached",
    "TR.c96_no_patch_needed",
    "TR.c96_patch_shape",
    "TR.c96_odd_width_short"
   ],
   "note": "runs at the ends of a path depend on the areas of C98; runs with bends are not covered by the geometric statement"
  },
  {
   "property": "C97",
   "status": "proved",
   "theorems": [
    "TR.c97_clean_iff",
    "TR.c97_better_end",
    "TR.c97_may_leave_box"
   ],
   "note": ""
  },
  {
   "property": "C98",
   "status": "proved",
   "theorems": [
    "TR.c98_far_end_reaching",
    "TR.c98_area_map",
    "TR.c98_boundary_area",
    "TR.c98_far_via_missed"
   ],
   "note": ""
  },
  {
   "property": "C99",
   "status": "proved",
   "theorems": [
    "TR.c99_default_via",
    "TR.c99_tie_depends_on_order"
   ],
   "note": "the areas of the metal are inputs"
  },
  {
   "property": "C100",
   "status": "proved",
   "theorems": [
    "TR.c100_generated_via",
    "TR.c100_cut_uncovered"
   ],
   "note": ""
  },
  {
   "property": "C101",
   "status": "proved",
   "theorems": [
    "TR.c101_cut_width",
    "TR.c101_width_positive"
   ],
   "note": ""
  },
  {
   "property": "C102",
   "status": "proved",
   "theorems": [
    "TR.c102_inter_layer_rules"
   ],
   "note": ""
  },
  {
   "property": "C103",
   "status": "proved",
   "theorems": [
    "TR.c103_pitch_and_offset",
    "TR.c103_needs_both_directions"
   ],
   "note": ""
  },
  {
   "property": "C104",
   "status": "proved",
   "theorems": [
    "TR.c104_grid_fits",
    "TR.c104_guides_on_lines",
    "TR.c104_even_layers_throw",
    "TR.c104_negative_die",
    "TR.c104_no_gcell",
    "TR.c104_negative_guides"
   ],
   "note": ""
  },
  {
   "property": "C105",
   "status": "proved",
   "theorems": [
    "TR.c105_meaning",
    "TR.c105_reads_file",
    "TR.c105_trailing_blank",
    "TR.c105_guide_before_net"
   ],
   "note": ""
  },
  {
   "property": "C106",
   "status": "proved",
   "theorems": [
    "TR.c106_round_trip",
    "TR.c106_via_guide_unreadable"
   ],
   "note": ""
  },
  {
   "property": "C107",
   "status": "proved",
   "theorems": [
    "TR.c107_extends_vias",
    "TR.c107_inserts_vias",
    "TR.c107_split_header",
    "TR.c107_no_components"
   ],
   "note": ""
  },
  {
   "property": "C108",
   "status": "proved",
   "theorems": [
    "TR.c108_corner_spacing",
    "TR.c108_concave_missed",
    "TR.c108_quadrant"
   ],
   "note": ""
  },
  {
   "property": "C109",
   "status": "proved",
   "theorems": [
    "TR.c109_boundary_pins",
    "TR.c109_neighbours_agree",
    "TR.c109_wire_connected",
    "TR.c109_wire_along_border"
   ],
   "note": ""
  },
  {
   "property": "C110",
   "status": "proved",
   "theorems": [
    "TR.c110_every_change_checked",
    "TR.c110_clean_is_final",
    "TR.c110_repair_no_increase",
    "TR.c110_no_early_stop",
    "TR.c110_ripup_iterations",
    "TR.c110_schedule"
   ],
   "note": ""
  },
  {
   "property": "C111",
   "status": "proved",
   "theorems": [
    "TR.c111_three_offsets",
    "TR.c111_point_inside"
   ],
   "note": ""
  },
  {
   "property": "C112",
   "status": "proved",
   "theorems": [
    "TR.c112_owners"
   ],
   "note": ""
  },
  {
   "property": "C113",
   "status": "proved",
   "theorems": [
    "TR.c113_follows",
    "TR.c113_routes",
    "TR.c113_initial_patches_counterexample"
   ],
   "note": ""
  },
  {
   "property": "C114",
   "status": "proved",
   "theorems": [
    "TR.c114_max_rects",
    "TR.c114_overlap",
    "TR.c114_closest",
    "TR.c114_fixed",
    "TR.c114_rectangle",
    "TR.c114_corner_flags"
   ],
   "note": ""
  },
  {
   "property": "C115",
   "status": "proved",
   "theorems": [
    "TR.c115_rect_only_iff",
    "TR.c115_non_rectangle_reported"
   ],
   "note": ""
  },
  {
   "property": "C116",
   "status": "proved",
   "theorems": [
    "TR.c116_members",
    "TR.c116_back",
    "TR.c116_unconnected",
    "TR.c116_agree",
    "TR.c116_twice"
   ],
   "note": ""
  },
  {
   "property": "C117",
   "status": "proved",
   "theorems": [
    "TR.c117_components",
    "TR.c117_pins",
    "TR.c117_nets",
    "TR.c117_tracks",
    "TR.c117_ids",
    "TR.c117_accepts"
   ],
   "note": ""
  },
  {
   "property": "C118",
   "status": "proved",
   "theorems": [
    "TR.c118_query",
    "TR.c118_placed",
    "TR.c118_polygons_missing"
   ],
   "note": ""
  },
  {
   "property": "C119",
   "status": "proved",
   "theorems": [
    "TR.c119_exact",
    "TR.c119_once",
    "TR.c119_stale"
   ],
   "note": ""
  },
  {
   "property": "C120",
   "status": "proved",
   "theorems": [
    "TR.c120_vias",
    "TR.c120_named"
   ],
   "note": ""
  },
  {
   "property": "C121",
   "status": "proved",
   "theorems": [
    "TR.c121_cells",
    "TR.c121_accepts",
    "TR.c121_orientations",
    "TR.c121_outline"
   ],
   "note": ""
  },
  {
   "property": "C122",
   "status": "proved",
   "theorems": [
    "TR.c122_via_places",
    "TR.c122_cut_places",
    "TR.c122_cut_places_exact"
   ],
   "note": ""
  },
  {
   "property": "C123",
   "status": "partial",
   "theorems": [
    "TR.c123_wire_places_partial",
    "TR.c123_second_track_wrong",
    "TR.c123_third_track_undefined"
   ],
   "note": "Proved for the lowest of the tracks near the shape and for those out of its reach; for the other tracks it is false of the code (proved)."
  },
  {
   "property": "C124",
   "status": "proved",
   "theorems": [
    "TR.c124_stores_fresh",
    "TR.c124_stores_content"
   ],
   "note": ""
  },
  {
   "property": "C125",
   "status": "proved",
   "theorems": [
    "TR.c125_cost_zero",
    "TR.c125_total",
    "TR.c125_no_exit"
   ],
   "note": ""
  },
  {
   "property": "C126",
   "status": "proved",
   "theorems": [
    "TR.c126_ends",
    "TR.c126_none_overlooked",
    "TR.c126_moves",
    "TR.c126_clean_via"
   ],
   "note": ""
  },
  {
   "property": "C127",
   "status": "proved",
   "theorems": [
    "TR.c127_one_wire",
    "TR.c127_reaches",
    "TR.c127_vias",
    "TR.c127_first",
    "TR.c127_grid",
    "TR.c127_both",
    "TR.c127_first_round_gap"
   ],
   "note": ""
  },
  {
   "property": "C128",
   "status": "partial",
   "theorems": [
    "TR.c128_pulled_partial",
    "TR.c128_pulled_to_zero",
    "TR.c128_hidden"
   ],
   "note": "Proved if every pin of the terminals at the ends has its access point and one lies in the panel; otherwise false of the code (proved)."
  },
  {
   "property": "C129",
   "status": "proved",
   "theorems": [
    "TR.c129_fixed_places",
    "TR.c129_records",
    "TR.c129_too_near"
   ],
   "note": ""
  },
  {
   "property": "C130",
   "status": "proved",
   "theorems": [
    "TR.c130_keeps_distance"
   ],
   "note": ""
  },
  {
   "property": "C131",
   "status": "proved",
   "theorems": [
    "TR.c131_never_exits",
    "TR.c131_pins_placed",
    "TR.c131_connected"
   ],
   "note": ""
  },
  {
   "property": "C132",
   "status": "proved",
   "theorems": [
    "TR.c132_within",
    "TR.c132_no_dangling",
    "TR.c132_plan"
   ],
   "note": ""
  },
  {
   "property": "C133",
   "status": "proved",
   "theorems": [
    "TR.c133_in_region",
    "TR.c133_on_metal",
    "TR.c133_directions",
    "TR.c133_off_grid"
   ],
   "note": "off the manufacturing grid a made-up point may lie beside the terminal (c133_off_grid)"
  },
  {
   "property": "C134",
   "status": "proved",
   "theorems": [
    "TR.c134_exit_iff",
    "TR.c134_no_division_by_zero",
    "TR.c134_negative_corner"
   ],
   "note": "at negative coordinates the program may end although metal lies in the region (c134_negative_corner)"
  },
  {
   "property": "C135",
   "status": "proved",
   "theorems": [
    "TR.c135_points_of_pin_access",
    "TR.c135_choice_lost"
   ],
   "note": "if a pin of the terminal has no access points, the choice for later pins is lost (c135_choice_lost)"
  },
  {
   "property": "C136",
   "status": "proved",
   "theorems": [
    "TR.c136_pins_among"
   ],
   "note": ""
  },
  {
   "property": "C137",
   "status": "partial",
   "theorems": [
    "TR.c137_fixed_shapes_partial",
    "TR.c137_macros_partial",
    "TR.c137_macro_drift_witness",
    "TR.c137_free_wire",
    "TR.c137_free_via",
    "TR.c137_free_cut"
   ],
   "note": "proved for nets whose terminals belong to standard cells, and for macros at the counters that a net's own terminals charge no more than all fixed shapes; false in general: with macro terminals a counter is left with a charge nothing makes (c137_macro_drift_witness)"
  },
  {
   "property": "C138",
   "status": "proved",
   "theorems": [
    "TR.c138_routed_shapes",
    "TR.c138_free_place",
    "TR.c138_charged"
   ],
   "note": ""
  },
  {
   "property": "C139",
   "status": "proved",
   "theorems": [
    "TR.c139_never_over",
    "TR.c139_patch_uncharged_witness"
   ],
   "note": ""
  },
  {
   "property": "C140",
   "status": "proved",
   "theorems": [
    "TR.c140_own_access"
   ],
   "note": ""
  },
  {
   "property": "C141",
   "status": "proved",
   "theorems": [
    "TR.c141_off_track",
    "TR.c141_marks_left_witness",
    "TR.c141_walk_defined"
   ],
   "note": ""
  },
  {
   "property": "C142",
   "status": "proved",
   "theorems": [
    "TR.c142_blocked"
   ],
   "note": ""
  },
  {
   "property": "C143",
   "status": "proved",
   "theorems": [
    "TR.c143_reserved"
   ],
   "note": ""
  },
  {
   "property": "C144",
   "status": "proved",
   "theorems": [
    "TR.c144_recorded",
    "TR.c144_via_remembered",
    "TR.c144_wire_nodes",
    "TR.c144_patch_nodes",
    "TR.c144_wraps",
    "TR.c144_patch_beyond"
   ],
   "note": "for counters that stay at most 255 and patches not beyond the last lines; without: c144_wraps, c144_patch_beyond"
  },
  {
   "property": "C145",
   "status": "partial",
   "theorems": [
    "TR.c145_wires_remembered",
    "TR.c145_wires_forgotten",
    "TR.c145_vias_forgotten_partial",
    "TR.c145_patch_never_forgotten"
   ],
   "note": "proved for wires, and for vias if no patch was found at a violation; false for vias otherwise: a patch raises the counters of vias without remembering them, they never fade (c145_patch_never_forgotten)"
  },
  {
   "property": "C146",
   "status": "proved",
   "theorems": [
    "TR.c146_wires_cost_more",
    "TR.c146_vias_cost_more"
   ],
   "note": ""
  },
  {
   "property": "C147",
   "status": "proved",
   "theorems": [
    "TR.c147_guides_of_the_net"
   ],
   "note": ""
  },
  {
   "property": "C148",
   "status": "proved",
   "theorems": [
    "TR.c148_cells_of_rect",
    "TR.c148_cells_of_terminal"
   ],
   "note": ""
  },
  {
   "property": "C149",
   "status": "proved",
   "theorems": [
    "TR.c149_one_per_pin",
    "TR.c149_without_access"
   ],
   "note": ""
  },
  {
   "property": "C150",
   "status": "proved",
   "theorems": [
    "TR.c150_cover_guides"
   ],
   "note": ""
  },
  {
   "property": "C151",
   "status": "proved",
   "theorems": [
    "TR.c151_summary",
    "TR.c151_adds_up"
   ],
   "note": ""
  },
  {
   "property": "C152",
   "status": "proved",
   "theorems": [
    "TR.c152_report",
    "TR.c152_coordinates",
    "TR.c152_words",
    "TR.c152_rule_words",
    "TR.c152_digits_lost"
   ],
   "note": "coordinates with more than six digits are rounded: c152_digits_lost"
  },
  {
   "property": "C153",
   "status": "proved",
   "theorems": [
    "TR.c153_neighbours",
    "TR.c153_adjacent_cuts",
    "TR.c153_other_class"
   ],
   "note": ""
  },
  {
   "property": "C154",
   "status": "partial",
   "theorems": [
    "TR.c154_every_pair_partial",
    "TR.c154_other_nets_unchecked",
    "TR.c154_second_layer",
    "TR.c154_other_nets_missed"
   ],
   "note": "false of the code when the layer has a LEF58 rule for one net: c154_other_nets_missed"
  },
  {
   "property": "C155",
   "status": "proved",
   "theorems": [
    "TR.c155_concave_corners",
    "TR.c155_convex_corners"
   ],
   "note": ""
  },
  {
   "property": "C156",
   "status": "proved",
   "theorems": [
    "TR.c156_rules_read",
    "TR.c156_classes_read",
    "TR.c156_class_names",
    "TR.c156_adjacent_checked",
    "TR.c156_never_ends"
   ],
   "note": ""
  },
  {
   "property": "C157",
   "status": "proved",
   "theorems": [
    "TR.c157_second_layers",
    "TR.c157_linked"
   ],
   "note": ""
  },
  {
   "property": "C158",
   "status": "proved",
   "theorems": [
    "TR.c158_own_layer",
    "TR.c158_two_layers",
    "TR.c158_same_net_alone",
    "TR.c158_rules_ok"
   ],
   "note": ""
  },
  {
   "property": "C159",
   "status": "proved",
   "theorems": [
    "TR.c159_eol_step_iff"
   ],
   "note": ""
  },
  {
   "property": "C160",
   "status": "proved",
   "theorems": [
    "TR.c160_area",
    "TR.c160_hole_iff",
    "TR.c160_width_skipped"
   ],
   "note": ""
  },
  {
   "property": "C161",
   "status": "proved",
   "theorems": [
    "TR.c161_shape_iff",
    "TR.c161_all_iff",
    "TR.c161_min_area_unchecked"
   ],
   "note": ""
  },
  {
   "property": "C162",
   "status": "proved",
   "theorems": [
    "TR.c162_patch",
    "TR.c162_only_gf14",
    "TR.c162_patches"
   ],
   "note": ""
  },
  {
   "property": "C163",
   "status": "proved",
   "theorems": [
    "TR.c163_layers",
    "TR.c163_even_routing",
    "TR.c163_names",
    "TR.c163_masterslice_lost"
   ],
   "note": ""
  },
  {
   "property": "C164",
   "status": "proved",
   "theorems": [
    "TR.c164_min_width",
    "TR.c164_steps_with_max_edges",
    "TR.c164_steps_unchecked"
   ],
   "note": ""
  },
  {
   "property": "C165",
   "status": "proved",
   "theorems": [
    "TR.c165_plain",
    "TR.c165_table",
    "TR.c165_two_widths",
    "TR.c165_others"
   ],
   "note": ""
  },
  {
   "property": "C166",
   "status": "partial",
   "theorems": [
    "TR.c166_rules",
    "TR.c166_read_partial",
    "TR.c166_carried_over"
   ],
   "note": "False of the code: options given in one statement stay in force in later statements that leave them out (counterexample proved); the rules stored are characterised in all cases, and shown to be those written where no option given before is left out."
  },
  {
   "property": "C167",
   "status": "proved",
   "theorems": [
    "TR.c167_single",
    "TR.c167_double",
    "TR.c167_one_row",
    "TR.c167_checked",
    "TR.c167_mixed"
   ],
   "note": ""
  },
  {
   "property": "C168",
   "status": "proved",
   "theorems": [
    "TR.c168_none",
    "TR.c168_starts",
    "TR.c168_values",
    "TR.c168_mistakes"
   ],
   "note": ""
  },
  {
   "property": "C169",
   "status": "proved",
   "theorems": [
    "TR.c169_start",
    "TR.c169_accepted",
    "TR.c169_values",
    "TR.c169_number",
    "TR.c169_others",
    "TR.c169_process",
    "TR.c169_five_lines"
   ],
   "note": ""
  },
  {
   "property": "C170",
   "status": "proved",
   "theorems": [
    "TR.c170_tried",
    "TR.c170_order",
    "TR.c170_measures",
    "TR.c170_mirror"
   ],
   "note": ""
  },
  {
   "property": "C171",
   "status": "proved",
   "theorems": [
    "TR.c171_points",
    "TR.c171_no_race",
    "TR.c171_deterministic"
   ],
   "note": ""
  },
  {
   "property": "C172",
   "status": "partial",
   "theorems": [
    "TR.c172_atomic",
    "TR.c172_plain_partial",
    "TR.c172_lost"
   ],
   "note": "False of the code for the number of pins without access points, whose increments are not atomic (interleaving proved); it is exact with one thread and never too high, and the numbers of access points are exact."
  },
  {
   "property": "C173",
   "status": "proved",
   "theorems": [
    "TR.c173_stored",
    "TR.c173_any_order",
    "TR.c173_skipped",
    "TR.c173_refused",
    "TR.c173_span",
    "TR.c173_twice_accepted",
    "TR.c173_file",
    "TR.c173_names"
   ],
   "note": ""
  },
  {
   "property": "C174",
   "status": "proved",
   "theorems": [
    "TR.c174_edges",
    "TR.c174_undefined",
    "TR.c174_cuts",
    "TR.c174_pins",
    "TR.c174_rects",
    "TR.c174_outline",
    "TR.c174_corners",
    "TR.c174_corner_view"
   ],
   "note": ""
  },
  {
   "property": "C175",
   "status": "partial",
   "theorems": [
    "TR.c175_partial",
    "TR.c175_metal",
    "TR.c175_witness"
   ],
   "note": "False of the code: only corners of cuts are told apart. On metal no convex corner counts as fixed and every concave one does (proved, with a witness). What holds is proved: convex corners are fixed exactly at the corners of fixed cuts, concave ones exactly off the sides of routed cuts."
  },
  {
   "property": "C176",
   "status": "proved",
   "theorems": [
    "TR.c176_comparison",
    "TR.c176_order",
    "TR.c176_unique",
    "TR.c176_shuffle",
    "TR.c176_overflow"
   ],
   "note": ""
  },
  {
   "property": "C177",
   "status": "proved",
   "theorems": [
    "TR.c177_loop",
    "TR.c177_loop_unique",
    "TR.c177_loop_ends",
    "TR.c177_detailed_routing",
    "TR.c177_runs"
   ],
   "note": ""
  },
  {
   "property": "C178",
   "status": "partial",
   "theorems": [
    "TR.c178_batches",
    "TR.c178_schedules",
    "TR.c178_threads",
    "TR.c178_one_thread_partial",
    "TR.c178_witness"
   ],
   "note": "False of the code for one thread, where each panel sees the wires of the panels before it moved already, while with more threads the eight panels of a batch start from the same places (witness proved). Proved: all numbers of threads but one and all schedules give the same places; one thread gives them too if no panel has in its surroundings wires assigned earlier in its batch."
  },
  {
   "property": "C179",
   "status": "proved",
   "theorems": [
    "TR.c179_writable",
    "TR.c179_check",
    "TR.c179_file"
   ],
   "note": "Within the known limits of the check: a pin that no route reaches is not missed (c32_untouched_pins_ignored). Connection is stated for nets without wires of length zero before the check, which the clean-up itself can produce."
  },
  {
   "property": "C180",
   "status": "partial",
   "theorems": [
    "TR.c180_same_file_partial",
    "TR.c180_repeated",
    "TR.c180_runs",
    "TR.c180_one_thread"
   ],
   "note": "False of the code for one thread against more (c180_one_thread, from track assignment). Proved: the same number of threads always gives the same file, and all numbers but one give the same file. What a single round of a loop computes is any function of the data the loop reads."
  },
  {
   "property": "C181",
   "status": "proved",
   "theorems": [
    "TR.c181_pins",
    "TR.c181_nets",
    "TR.c181_connected",
    "TR.c181_wired",
    "TR.c181_track_assignment",
    "TR.c181_terminals",
    "TR.c181_short_wire"
   ],
   "note": "Condition: no wire of one unit goes from one GCell to the next; such a wire is skipped by the program and the net falls apart (c181_short_wire)."
  },
  {
   "property": "C182",
   "status": "proved",
   "theorems": [
    "TR.c182_all_wired",
    "TR.c182_hang",
    "TR.c182_net_connected"
   ],
   "note": "Conditions that C181 has too: the wires lie in the die, and no wire of one unit crosses from one GCell to the next."
  },
  {
   "property": "C183",
   "status": "partial",
   "theorems": [
    "TR.c183_component_partial",
    "TR.c183_distinct",
    "TR.c183_cover",
    "TR.c183_property"
   ],
   "note": "False of the code for covered components, unplaced ones with a location, regions of coordinates, foreign cells and properties (proved: such text is refused); exact characterisation for all components."
  },
  {
   "property": "C184",
   "status": "partial",
   "theorems": [
    "TR.c184_sections_partial",
    "TR.c184_counted",
    "TR.c184_empty"
   ],
   "note": "False of the code for empty sections, wrong numbers in headers and timing disables (proved); exact characterisation for all sequences of sections."
  },
  {
   "property": "C185",
   "status": "partial",
   "theorems": [
    "TR.c185_exact",
    "TR.c185_near",
    "TR.c185_track_partial",
    "TR.c185_track_exact",
    "TR.c185_shifted",
    "TR.c185_row_partial",
    "TR.c185_gcell",
    "TR.c185_again"
   ],
   "note": "False of the code from a million on (proved: no written track is a track of the design), for tracks without layers and for rows with properties; exact characterisation."
  },
  {
   "property": "C186",
   "status": "partial",
   "theorems": [
    "TR.c186_die_partial",
    "TR.c186_rectangle",
    "TR.c186_polygon"
   ],
   "note": "False of the code for polygons (proved)."
  },
  {
   "property": "C187",
   "status": "partial",
   "theorems": [
    "TR.c187_net_partial",
    "TR.c187_connections",
    "TR.c187_old_wires",
    "TR.c187_lost"
   ],
   "note": "False of the code for XTALK, STYLE, synthesized connections, virtual pins and most properties (proved); exact characterisation. Subnets are not modelled."
  },
  {
   "property": "C188",
   "status": "partial",
   "theorems": [
    "TR.c188_snet_partial",
    "TR.c188_wires",
    "TR.c188_lost",
    "TR.c188_virtual"
   ],
   "note": "False of the code for rectangles, virtual points, vias, polygons and synthesized connections (proved); exact characterisation. Masks, TAPER and subnets are not modelled."
  },
  {
   "property": "C189",
   "status": "partial",
   "theorems": [
    "TR.c189_pin_partial",
    "TR.c189_plain",
    "TR.c189_moved",
    "TR.c189_port"
   ],
   "note": "False of the code for polygons, vias, antennas, ports with rectangles and placements after a port (proved); exact characterisation. Masks of vias are not modelled."
  },
  {
   "property": "C190",
   "status": "proved",
   "theorems": [
    "TR.c190_start",
    "TR.c190_box",
    "TR.c190_next",
    "TR.c190_run"
   ],
   "note": "For coordinates up to 2^28 and heights that grow with the layers."
  },
  {
   "property": "C191",
   "status": "partial",
   "theorems": [
    "TR.c191_via_partial",
    "TR.c191_plain",
    "TR.c191_grows"
   ],
   "note": "False of the code for polygons and cut patterns (proved); exact characterisation. PATTERNNAME, which the grammar ignores since DEF 5.6, is not modelled."
  },
  {
   "property": "C192",
   "status": "partial",
   "theorems": [
    "TR.c192_blockage_partial",
    "TR.c192_all",
    "TR.c192_inj"
   ],
   "note": "False of the code for polygons (proved); exact characterisation. The density of PARTIAL is a whole number with at most six digits."
  },
  {
   "property": "C193",
   "status": "partial",
   "theorems": [
    "TR.c193_ndr_partial",
    "TR.c193_region_partial",
    "TR.c193_inj"
   ],
   "note": "False of the code for properties (proved); exact characterisation."
  },
  {
   "property": "C194",
   "status": "partial",
   "theorems": [
    "TR.c194_fill_partial",
    "TR.c194_slot",
    "TR.c194_via"
   ],
   "note": "False of the code for every fill and slot (proved for all of them); the grammar accepts the same statements with parentheses (examples)."
  },
  {
   "property": "C195",
   "status": "partial",
   "theorems": [
    "TR.c195_parts",
    "TR.c195_file_partial",
    "TR.c195_spoiled",
    "TR.c195_names"
   ],
   "note": "Exact characterisation: the file is readable exactly if every section is written with its end and every statement with text that is DEF; the first two statements and property definitions (see C196, C198), history and the sections without a statement model are left out; groups are those without rectangles."
  },
  {
   "property": "C196",
   "status": "partial",
   "theorems": [
    "TR.c196_definition_partial",
    "TR.c196_exact",
    "TR.c196_types",
    "TR.c196_empty"
   ],
   "note": "Exact characterisation of the definitions that come back unchanged; numbers are whole numbers."
  },
  {
   "property": "C197",
   "status": "partial",
   "theorems": [
    "TR.c197_group_partial",
    "TR.c197_same",
    "TR.c197_boxes",
    "TR.c197_refused"
   ],
   "note": "False of the code for groups with sizes, rectangles or properties; the theorems say what is read instead."
  },
  {
   "property": "C198",
   "status": "partial",
   "theorems": [
    "TR.c198_case_partial",
    "TR.c198_version",
    "TR.c198_off"
   ],
   "note": "Exact: the case meaning is kept or the file is refused, the latter exactly if names were not case sensitive."
  },
  {
   "property": "C199",
   "status": "partial",
   "theorems": [
    "TR.c199_doc_partial",
    "TR.c199_namemap",
    "TR.c199_insensitive"
   ],
   "note": "Exact characterisation of readable files; left out: history, definitions with an empty text (C196), groups with rectangles (C197), sections without a statement model."
  },
  {
   "property": "C200",
   "status": "proved",
   "theorems": [
    "TR.c200_stored",
    "TR.c200_not_generate",
    "TR.c200_skipped",
    "TR.c200_refused",
    "TR.c200_twice_accepted",
    "TR.c200_accepted"
   ],
   "note": "The repeated layer is a proved witness; nothing later in the program reads the stored rules."
  },
  {
   "property": "C201",
   "status": "proved",
   "theorems": [
    "TR.c201_file"
   ],
   "note": "Joins C177, C179, C80 and C199; the reference file must be one that C199 says is echoed as DEF."
  },
  {
   "property": "C202",
   "status": "partial",
   "theorems": [
    "TR.c202_scaled",
    "TR.c202_exact",
    "TR.c202_no_units",
    "TR.c202_placed_partial",
    "TR.c202_mixed",
    "TR.c202_cut_area"
   ],
   "note": "Scaling after UNITS is proved for all files. False of the code in general: a file without UNITS, a design with other units than LEF (exactly then a placed coordinate is wrong) and the AREA of cut spacings are proved witnesses. Products are exact where the code has double."
  },
  {
   "property": "C203",
   "status": "proved",
   "theorems": [
    "TR.c203_nets",
    "TR.c203_found",
    "TR.c203_metal"
   ],
   "note": "The R-trees are lists that give exactly the entries meeting the box."
  },
  {
   "property": "C204",
   "status": "proved",
   "theorems": [
    "TR.c204_live",
    "TR.c204_found"
   ],
   "note": "The edges and rectangles made of the metal of a net are an arbitrary function that depends on the metal only (C114, C115). The exception for patches of an initial check is c113_initial_patches_counterexample."
  },
  {
   "property": "C205",
   "status": "partial",
   "theorems": [
    "TR.c205_range",
    "TR.c205_shared_partial",
    "TR.c205_top_layer"
   ],
   "note": "The range is proved for all cells. Sharing is proved for pins with a routing layer above them and origins that are not negative; for the highest layer it is false of the code (c205_top_layer)."
  },
  {
   "property": "C206",
   "status": "partial",
   "theorems": [
    "TR.c206_wire",
    "TR.c206_via_partial",
    "TR.c206_group",
    "TR.c206_block_pin_via"
   ],
   "note": "Wires and groups of vias: all pins. Vias: all pins of instances and pins of the block without a net; for pins of the block in a net the statement is false of the code, and it is proved, through the maximal rectangles of C114 and the layer check of C57, that the check reports a short (c206_block_pin_via)."
  },
  {
   "property": "C207",
   "status": "proved",
   "theorems": [
    "TR.c207_accepted",
    "TR.c207_ids",
    "TR.c207_objects",
    "TR.c207_sets",
    "TR.c207_region",
    "TR.c207_panel",
    "TR.c207_made_up_nets"
   ],
   "note": "Counters are unbounded integers in the model. The two supply nets that are made up share the number -1 (c207_made_up_nets); no net of the design has it."
  },
  {
   "property": "C208",
   "status": "proved",
   "theorems": [
    "TR.c208_other_processes",
    "TR.c208_only_added",
    "TR.c208_corner",
    "TR.c208_corner_exact",
    "TR.c208_nothing_else",
    "TR.c208_through"
   ],
   "note": "Corner lengths for vias whose shapes are centred at their origin. The table of overlap lengths is filled but never looked up and not modelled."
  },
  {
   "property": "C209",
   "status": "proved",
   "theorems": [
    "TR.c209_division_by_zero",
    "TR.c209_count",
    "TR.c209_then_pin_access",
    "TR.c209_negative_coordinates"
   ],
   "note": "The count is for origins that are not negative; c209_negative_coordinates shows that it is wrong for others, because they are taken as unsigned numbers."
  },
  {
   "property": "C210",
   "status": "proved",
   "theorems": [
    "TR.c210_steps_needed",
    "TR.c210_read",
    "TR.c210_tracks_exact"
   ],
   "note": "Layers 0, 2, 4, ... are the routing layers the loop visits. Overflow of the 32-bit numbers is not modelled."
  }
 ]
}