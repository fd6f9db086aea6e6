import Verif.Astar.Abs
import Verif.Astar.AbsProof
import Verif.Astar.Model
import Verif.Astar.PathLemmas
import Verif.Astar.Props
import Verif.Astar.Sim
import Verif.Build.Edges
import Verif.Build.Examples
import Verif.Build.Maps
import Verif.Build.Marks
import Verif.Build.Model
import Verif.Build.Props
import Verif.Build.Routes
import Verif.Build.Spec
import Verif.Conn.CleanLemmas
import Verif.Conn.Final
import Verif.Conn.MergeLemmas
import Verif.Conn.MergeModel
import Verif.Conn.MergeNet
import Verif.Conn.MergeSpec
import Verif.Conn.Model
import Verif.Conn.NodeLemmas
import Verif.Conn.Props
import Verif.Conn.SearchLemmas
import Verif.Conn.SearchModel
import Verif.Conn.SearchSpec
import Verif.Conn.Spec
import Verif.Cost.Blocked
import Verif.Cost.Cuts
import Verif.Cost.HistSpec
import Verif.Cost.History
import Verif.Cost.Model
import Verif.Cost.Nodes
import Verif.Cost.Planar
import Verif.Cost.Spec
import Verif.Cost.Via
import Verif.Cost.ViaEol
import Verif.Cost.Which
import Verif.Cut58.Ex
import Verif.Cut58.Lemmas
import Verif.Cut58.Model
import Verif.Cut58.Props
import Verif.Cut58.ReadEx
import Verif.Cut58.ReadModel
import Verif.Cut58.ReadProps
import Verif.Cut58.ReadSpec
import Verif.Cut58.Spec
import Verif.CutIn.Model
import Verif.CutIn.Props
import Verif.CutIn.Spec
import Verif.Def.Cases
import Verif.Def.File
import Verif.Def.Model
import Verif.Def.Props
import Verif.Def.Spec
import Verif.Def.Stages
import Verif.Def.Sweep
import Verif.DrPin.Lemmas
import Verif.DrPin.Model
import Verif.DrPin.Props
import Verif.DrPin.Spec
import Verif.DrPin.Term
import Verif.Echo.Comp
import Verif.Echo.CompProps
import Verif.Echo.Defs
import Verif.Echo.DefsProps
import Verif.Echo.DefsSpec
import Verif.Echo.Doc
import Verif.Echo.DocProps
import Verif.Echo.DocSpec
import Verif.Echo.File
import Verif.Echo.FileProps
import Verif.Echo.FileSpec
import Verif.Echo.Grid
import Verif.Echo.GridProps
import Verif.Echo.GridSpec
import Verif.Echo.Lemmas
import Verif.Echo.Ndr
import Verif.Echo.NdrProps
import Verif.Echo.NdrSpec
import Verif.Echo.Net
import Verif.Echo.NetProps
import Verif.Echo.NetSpec
import Verif.Echo.Num
import Verif.Echo.NumLemmas
import Verif.Echo.Pin
import Verif.Echo.PinProps
import Verif.Echo.PinSpec
import Verif.Echo.SNet
import Verif.Echo.SNetProps
import Verif.Echo.SNetSpec
import Verif.Echo.Sec
import Verif.Echo.SecProps
import Verif.Echo.Spec
import Verif.Echo.Tok
import Verif.Echo.Via
import Verif.Echo.ViaProps
import Verif.Echo.ViaSpec
import Verif.First.Guides
import Verif.First.Lemmas
import Verif.First.Model
import Verif.First.Props
import Verif.First.Spec
import Verif.First.Wires
import Verif.GC.Corner
import Verif.GC.CornerEx
import Verif.GC.CornerLemmas
import Verif.GC.CornerProps
import Verif.GC.CornerSpec
import Verif.GC.Cut.Model
import Verif.GC.Cut.Props
import Verif.GC.Cut.Spec
import Verif.GC.Edges
import Verif.GC.Eol.Model
import Verif.GC.Eol.Props
import Verif.GC.Eol.Spec
import Verif.GC.Examples
import Verif.GC.Layer
import Verif.GC.Lemmas
import Verif.GC.Model
import Verif.GC.Props
import Verif.GC.Rects.Flags
import Verif.GC.Rects.Lemmas
import Verif.GC.Rects.Model
import Verif.GC.Rects.Props
import Verif.GC.Rects.RectOnly
import Verif.GC.Rects.Spec
import Verif.GC.Shape
import Verif.GC.ShapeProps
import Verif.GC.ShapeSpec
import Verif.GC.Spec
import Verif.GCell.Lemmas
import Verif.GCell.Props
import Verif.GFinal.Main
import Verif.GFinal.Model
import Verif.GFinal.Props
import Verif.GFinal.Spec
import Verif.GFinal.Tree
import Verif.GFinal.Trim
import Verif.GcDb.Find
import Verif.GcDb.FindProps
import Verif.GcDb.FindSpec
import Verif.GcDb.Follow
import Verif.GcDb.Lemmas
import Verif.GcDb.Model
import Verif.GcDb.Props
import Verif.GcDb.Spec
import Verif.GcEdge.CornProps
import Verif.GcEdge.Model
import Verif.GcEdge.Props
import Verif.GcEdge.Spec
import Verif.Geom.Props
import Verif.Guide.Attempt
import Verif.Guide.IvLemmas
import Verif.Guide.Link
import Verif.Guide.Model
import Verif.Guide.Props
import Verif.Guide.Search
import Verif.Guide.Spec
import Verif.Guide.Split
import Verif.Hist.Lemmas
import Verif.Hist.Model
import Verif.Hist.Nodes
import Verif.Hist.Props
import Verif.Hist.Record
import Verif.Hist.Spec
import Verif.Hole.Area
import Verif.Hole.Model
import Verif.Hole.Props
import Verif.Hole.Spec
import Verif.Ids.Lemmas
import Verif.Ids.Made
import Verif.Ids.Model
import Verif.Ids.Props
import Verif.Ids.Spec
import Verif.Lay.Model
import Verif.Lay.Props
import Verif.Lay.Spec
import Verif.Lay.TextProps
import Verif.LefVia.Model
import Verif.LefVia.Props
import Verif.LefVia.Rule
import Verif.LefVia.RuleProps
import Verif.LefVia.RuleSpec
import Verif.LefVia.Spec
import Verif.Maze.CounterProps
import Verif.Maze.EdgeProps
import Verif.Maze.LabelProps
import Verif.NetCost.Block
import Verif.NetCost.Clear
import Verif.NetCost.Drc
import Verif.NetCost.FlagRun
import Verif.NetCost.Flags
import Verif.NetCost.Ledger
import Verif.NetCost.Model
import Verif.NetCost.Props
import Verif.NetCost.Run
import Verif.NetCost.Shape
import Verif.NetCost.Spec
import Verif.NetCost.Stretch
import Verif.NetOrd.Model
import Verif.NetOrd.Props
import Verif.Opt.Model
import Verif.Opt.Props
import Verif.Opt.Spec
import Verif.PA.CMap
import Verif.PA.Lib.Props
import Verif.PA.Pattern.Cell
import Verif.PA.Pattern.Lemmas
import Verif.PA.Pattern.Model
import Verif.PA.Pattern.Props
import Verif.PA.Pattern.Spec
import Verif.PA.Point.Lemmas
import Verif.PA.Point.Model
import Verif.PA.Point.Props
import Verif.PA.Point.Rank
import Verif.PA.Point.Spec
import Verif.PA.Track.Model
import Verif.PA.Track.Props
import Verif.PA.Track.Range
import Verif.PA.Track.RangeProps
import Verif.PA.Track.RangeSpec
import Verif.PA.Track.Spec
import Verif.PA.Try.Model
import Verif.PA.Try.Props
import Verif.PA.Try.Spec
import Verif.PaRun.Model
import Verif.PaRun.RunProps
import Verif.PaRun.Spec
import Verif.PaRun.ViaProps
import Verif.Patch.Area
import Verif.Patch.Choice
import Verif.Patch.Examples
import Verif.Patch.Geo
import Verif.Patch.Halves
import Verif.Patch.Lemmas
import Verif.Patch.Model
import Verif.Patch.Props
import Verif.Patch.Spec
import Verif.PinCell.Lemmas
import Verif.PinCell.Model
import Verif.PinCell.Props
import Verif.PinCell.Spec
import Verif.RQueue.Lemmas
import Verif.RQueue.Model
import Verif.RQueue.Props
import Verif.RQueue.Spec
import Verif.Read.Accept
import Verif.Read.Inv
import Verif.Read.Lef
import Verif.Read.Lemmas
import Verif.Read.Model
import Verif.Read.Nets
import Verif.Read.Props
import Verif.Read.Props2
import Verif.Read.Query
import Verif.Read.Spec
import Verif.Read.Store
import Verif.Read.Tracks
import Verif.Read.Vias
import Verif.Region.Comp
import Verif.Region.Model
import Verif.Region.Nodes
import Verif.Region.Pieces
import Verif.Region.Props
import Verif.Region.Reroute
import Verif.Region.Spec
import Verif.Region.Worker
import Verif.RouteNet.AimProps
import Verif.RouteNet.AimSpec
import Verif.RouteNet.Model
import Verif.RouteNet.Props
import Verif.Rpt.Model
import Verif.Rpt.Props
import Verif.Rpt.Spec
import Verif.Run.Pins
import Verif.Run.PinsEx
import Verif.Run.PinsLemmas
import Verif.Run.PinsProps
import Verif.Run.PinsSpec
import Verif.Run.Schedule
import Verif.Run.ScheduleLemmas
import Verif.Run.ScheduleProps
import Verif.Run.ScheduleSpec
import Verif.Scale.Model
import Verif.Scale.Props
import Verif.Scale.Spec
import Verif.Seek.Costs
import Verif.Seek.Examples
import Verif.Seek.Hist
import Verif.Seek.Model
import Verif.Seek.Near
import Verif.Seek.NearInv
import Verif.Seek.NearLoop
import Verif.Seek.Props
import Verif.Seek.Sim
import Verif.Seek.Spec
import Verif.Seek.Tables
import Verif.Setup.GcModel
import Verif.Setup.GcProps
import Verif.Setup.GcSpec
import Verif.Setup.RefModel
import Verif.Setup.RefProps
import Verif.Setup.Steps
import Verif.Setup.TextLemmas
import Verif.Setup.TextModel
import Verif.Setup.TextProps
import Verif.Setup.TextSpec
import Verif.Setup.ViaModel
import Verif.Setup.ViaProps
import Verif.Setup.ViaSpec
import Verif.TA.Lemmas
import Verif.TA.Model
import Verif.TA.Props
import Verif.TA.Spec
import Verif.TaInit.Fixed
import Verif.TaInit.Grid
import Verif.TaInit.Lemmas
import Verif.TaInit.Model
import Verif.TaInit.Pass
import Verif.TaInit.Props
import Verif.TaInit.Runs
import Verif.TaInit.Spec
import Verif.TaWork.Blocks
import Verif.TaWork.Cuts
import Verif.TaWork.Inv
import Verif.TaWork.Later
import Verif.TaWork.Lemmas
import Verif.TaWork.Model
import Verif.TaWork.Pass
import Verif.TaWork.Props
import Verif.TaWork.Spec
import Verif.TaWork.Store
import Verif.Tech.Cut
import Verif.Tech.Gf14
import Verif.Tech.Model
import Verif.Tech.Props
import Verif.Tech.Spec
import Verif.Thr.Lemmas
import Verif.Thr.Model
import Verif.Thr.Props
import Verif.Thr.Spec
import Verif.Thr.TaProps
import Verif.Track.Props
import Verif.WB.End
import Verif.WB.Lemmas
import Verif.WB.Merge
import Verif.WB.Model
import Verif.WB.Props
import Verif.WB.Spec
import Verif.Whole.DocProps
import Verif.Whole.DocSpec
import Verif.Whole.Flow
import Verif.Whole.Model
import Verif.Whole.Props
import Verif.Whole.Spec
import Verif.Wq.Model
import Verif.Wq.Props
import Verif.Wq.Spec
/-! Axioms used by every property theorem (generated from MANIFEST.json). -/
#print axioms TR.c01_revert_inverse
#print axioms TR.c01_revert_revert
#print axioms TR.c01_bijective
#print axioms TR.c01_orient_name_roundtrip
#print axioms TR.c02_rigid
#print axioms TR.c02_box_transform_points
#print axioms TR.c02_box_transform_dims
#print axioms TR.c02_overlap_invariant
#print axioms TR.c03_placed_outline
#print axioms TR.c03_large_origin_misplaced
#print axioms TR.c04_set_normalises
#print axioms TR.c04_contains_point
#print axioms TR.c04_contains_box
#print axioms TR.c04_overlaps_closed
#print axioms TR.c04_overlaps_open
#print axioms TR.c04_bloat
#print axioms TR.c04_negative_bloat_flips
#print axioms TR.c05_point_order
#print axioms TR.c05_box_order
#print axioms TR.c05_maze_index_order
#print axioms TR.c06_strict_weak
#print axioms TR.c06_top_contract
#print axioms TR.c06_top
#print axioms TR.c06_buffer
#print axioms TR.c07_storage_injective
#print axioms TR.c07_valid_iff
#print axioms TR.c08_single_attribute
#print axioms TR.c08_history
#print axioms TR.c08_queries
#print axioms TR.c08_decay_fallthrough_witness
#print axioms TR.c09_symmetric
#print axioms TR.c09_add
#print axioms TR.c09_add_succeeds_iff
#print axioms TR.c09_remove
#print axioms TR.c09_step
#print axioms TR.c09_history
#print axioms TR.c09_edges_stay_on_grid
#print axioms TR.c09_guarded_ops_stay_inside
#print axioms TR.c10_counter_exact_partial
#print axioms TR.c10_present_iff_partial
#print axioms TR.c10_overflow_vanishes
#print axioms TR.c11_step
#print axioms TR.c11_labels_read_back
#print axioms TR.c11_words_untouched
#print axioms TR.c12_tracks_exact
#print axioms TR.c12_coord_vector
#print axioms TR.c13_maze_index_of_member
#print axioms TR.c13_has_maze_index
#print axioms TR.c13_index_box
#print axioms TR.c13_index_box_empty
#print axioms TR.c13_ta_track_range
#print axioms TR.c14_path_is_routable
#print axioms TR.c15_search_terminates
#print axioms TR.c16_finds_iff_reachable
#print axioms TR.c17_path_simple
#print axioms TR.c18_success_connects_all_pins
#print axioms TR.c19_shapes_well_formed
#print axioms TR.c20_net_routing_terminates
#print axioms TR.c20_failure_means_unreachable
#print axioms TR.c20_reachable_pins_get_routed
#print axioms TR.c21_index_in_range_and_contains
#print axioms TR.c21_center_inside
#print axioms TR.c21_center_roundtrip
#print axioms TR.c22_gcells_tile_die
#print axioms TR.c23_workers_disjoint
#print axioms TR.c23_gcell_in_exactly_one_worker
#print axioms TR.c23_workers_cover_die
#print axioms TR.c23_offset_too_negative
#print axioms TR.c24_batches_partition
#print axioms TR.c24_batch_separated
#print axioms TR.c24_extended_boxes_disjoint
#print axioms TR.c25_outside_kept
#print axioms TR.c25_inside_removed
#print axioms TR.c25_inside_removed_pts
#print axioms TR.c25_cut_ends
#print axioms TR.c25_boundary_points
#print axioms TR.c25_unmodified
#print axioms TR.c25_vias
#print axioms TR.c25_patches
#print axioms TR.c26_merge
#print axioms TR.c26_merge_happens
#print axioms TR.c26_end_styles
#print axioms TR.c26_centre_lines_kept
#print axioms TR.c26_rest_kept
#print axioms TR.c26_overlap_style_lost
#print axioms TR.c27_no_worse
#print axioms TR.c27_mode_one
#print axioms TR.c27_nothing_to_repair
#print axioms TR.c27_total
#print axioms TR.c27_sequence
#print axioms TR.c27_shared_violation_grows
#print axioms TR.c28_store
#print axioms TR.c28_no_checks
#print axioms TR.c29_store
#print axioms TR.c29_answer
#print axioms TR.c29_keeps
#print axioms TR.c30_merge_preserves_coverage
#print axioms TR.c30_merged_wires_disjoint
#print axioms TR.c30_style_from_other_group
#print axioms TR.c31_split_lookup_exact
#print axioms TR.c31_node_map_exact
#print axioms TR.c32_check_iff_connected
#print axioms TR.c32_net_broken_iff
#print axioms TR.c32_one_pin_fails
#print axioms TR.c32_untouched_pins_ignored
#print axioms TR.c33_kept_connects
#print axioms TR.c34_order_covers
#print axioms TR.c34_best_track
#print axioms TR.c34_best_available
#print axioms TR.c34_track_found
#print axioms TR.c34_available_tracks
#print axioms TR.c34_empty_panel_takes_outside_track
#print axioms TR.c35_recorded_cost_partial
#print axioms TR.c35_first_pass_records_other_track
#print axioms TR.c35_later_pass_records_other_track
#print axioms TR.c36_assignment_terminates
#print axioms TR.c37_lookup2
#print axioms TR.c37_decrement_defined
#print axioms TR.c37_lookup1
#print axioms TR.c37_find
#print axioms TR.c37_find_mono
#print axioms TR.c37_find_bounds
#print axioms TR.c38_sorted_rows_partial
#print axioms TR.c38_order_not_asymmetric
#print axioms TR.c38_never_too_small_partial
#print axioms TR.c38_row_too_wide
#print axioms TR.c39_entries
#print axioms TR.c39_included
#print axioms TR.c39_via2via_query
#print axioms TR.c39_turn_query
#print axioms TR.c39_line_query
#print axioms TR.c40_reported_iff
#print axioms TR.c40_overflow
#print axioms TR.c40_overflow_example
#print axioms TR.c41_window_iff
#print axioms TR.c41_nothing_missed
#print axioms TR.c41_fits
#print axioms TR.c41_same_net_missed
#print axioms TR.c42_merge_coverage
#print axioms TR.c42_base_exact
#print axioms TR.c42_merge_separated
#print axioms TR.c43_search_exact
#print axioms TR.c43_kept_connect
#print axioms TR.c43_one_pin_keeps_nothing
#print axioms TR.c44_ripup_restores
#print axioms TR.c44_add_then_remove
#print axioms TR.c45_queue_terminates
#print axioms TR.c45_reroute_limit
#print axioms TR.c45_stale_skipped
#print axioms TR.c46_ta_panels_h
#print axioms TR.c46_ta_panels_v
#print axioms TR.c47_cleanup_keeps_connection
#print axioms TR.c47_cleanup_adds_nothing
#print axioms TR.c47_not_idempotent
#print axioms TR.c48_touching_connected
#print axioms TR.c49_split_ends
#print axioms TR.c49_split_complete
#print axioms TR.c50_accepted_connected
#print axioms TR.c50_connected_accepted
#print axioms TR.c50_rejected_disconnected
#print axioms TR.c51_violations_retried
#print axioms TR.c52_every_wire_handled
#print axioms TR.c52_first_pass_once
#print axioms TR.c53_forbidden_iff
#print axioms TR.c53_inside_forbidden
#print axioms TR.c53_outside_allowed
#print axioms TR.c54_metal_spacing
#print axioms TR.c54_cut_spacing
#print axioms TR.c54_cut_spacing_same_net
#print axioms TR.c54_cut_spacing_layers
#print axioms TR.c54_stacked_allowed
#print axioms TR.c54_other_layer_x_partial
#print axioms TR.c54_other_layer_y_missed
#print axioms TR.c54_min_cut_order_dependent
#print axioms TR.c55_turn_spacing
#print axioms TR.c55_line_spacing
#print axioms TR.c56_same_outside
#print axioms TR.c56_loaded_inside
#print axioms TR.c56_cover
#print axioms TR.c56_round_trip
#print axioms TR.c56_vias_round_trip
#print axioms TR.c56_zero_length_lost
#print axioms TR.c57_layer
#print axioms TR.c57_symmetric
#print axioms TR.c57_target_complete
#print axioms TR.c58_short_iff
#print axioms TR.c58_weak_joint_iff
#print axioms TR.c59_min_step_iff
#print axioms TR.c59_typed_never
#print axioms TR.c59_helper_iff
#print axioms TR.c59_one_long_edge
#print axioms TR.c60_min_width_iff
#print axioms TR.c60_min_width_where
#print axioms TR.c60_off_grid_iff
#print axioms TR.c60_grid_zero
#print axioms TR.c61_windows
#print axioms TR.c61_end_of_line
#print axioms TR.c61_sound
#print axioms TR.c61_complete
#print axioms TR.c61_exact
#print axioms TR.c61_order_dependent
#print axioms TR.c62_crowded_iff
#print axioms TR.c62_pair_iff
#print axioms TR.c62_rule_iff
#print axioms TR.c62_layer_iff
#print axioms TR.c62_target_complete
#print axioms TR.c62_target_incomplete
#print axioms TR.c62_area_ignored
#print axioms TR.c62_same_net_applies_to_others
#print axioms TR.c63_pair_iff
#print axioms TR.c63_rule_iff
#print axioms TR.c63_same_net_missed
#print axioms TR.c64_coords_iff
#print axioms TR.c64_track_lost
#print axioms TR.c65_share_iff
#print axioms TR.c65_tracks_agree
#print axioms TR.c65_negative_origin
#print axioms TR.c65_partly_covered
#print axioms TR.c66_points_exact
#print axioms TR.c67_checked
#print axioms TR.c67_rank
#print axioms TR.c67_stored
#print axioms TR.c67_via_not_inside
#print axioms TR.c68_row_optimal
#print axioms TR.c68_row_none
#print axioms TR.c68_clean_found
#print axioms TR.c68_rows
#print axioms TR.c69_patterns
#print axioms TR.c69_pins
#print axioms TR.c69_no_via
#print axioms TR.c69_found
#print axioms TR.c69_single_pin
#print axioms TR.c69_missing_pin
#print axioms TR.c69_window_last
#print axioms TR.c69_window_misses
#print axioms TR.c70_subnets
#print axioms TR.c70_partition
#print axioms TR.c70_patch_apart
#print axioms TR.c70_overlap_missed
#print axioms TR.c71_reroute
#print axioms TR.c71_border
#print axioms TR.c71_worker
#print axioms TR.c72_planar
#print axioms TR.c72_planar_only
#print axioms TR.c72_clear
#print axioms TR.c72_narrow_missed
#print axioms TR.spcMono_of
#print axioms TR.c73_via
#print axioms TR.c73_via_only
#print axioms TR.c73_clear
#print axioms TR.c73_patch_length
#print axioms TR.c73_special_via_missed
#print axioms TR.c73_within_missed
#print axioms TR.c73_which_via
#print axioms TR.c74_planar
#print axioms TR.c74_via
#print axioms TR.c74_only
#print axioms TR.c75_cut
#print axioms TR.c75_cut_only
#print axioms TR.c75_inter
#print axioms TR.c75_inter_only
#print axioms TR.c75_which_rule
#print axioms TR.c76_min_cut
#print axioms TR.c76_beside_missed
#print axioms TR.c77_counter
#print axioms TR.c77_order
#print axioms TR.c77_free_wire
#print axioms TR.c77_free_via
#print axioms TR.c77_free_cut
#print axioms TR.c77_free_inter
#print axioms TR.c77_wire_line_ends
#print axioms TR.c77_other_line_ends
#print axioms TR.c78_in_grid
#print axioms TR.c78_only_drc
#print axioms TR.c78_outside
#print axioms TR.c78_through
#print axioms TR.c79_block_planar
#print axioms TR.c79_block_via
#print axioms TR.c79_unblock
#print axioms TR.c79_adjacent_cuts
#print axioms TR.c80_round_trip
#print axioms TR.c80_own_routes
#print axioms TR.c81_lines
#print axioms TR.c81_wires_ok
#print axioms TR.c81_once
#print axioms TR.c82_metal
#print axioms TR.c82_file
#print axioms TR.c82_ends
#print axioms TR.c82_extension_lost
#print axioms TR.c82_point_wire_lost
#print axioms TR.c83_vias
#print axioms TR.c83_vias_do_not_split
#print axioms TR.c83_crossing_missed
#print axioms TR.c84_direction
#print axioms TR.c84_via
#print axioms TR.c84_first_last
#print axioms TR.c84_bend_lost
#print axioms TR.c85_coordinates
#print axioms TR.c85_labels_clear
#print axioms TR.c85_heights
#print axioms TR.c86_east
#print axioms TR.c86_north
#print axioms TR.c86_up
#print axioms TR.c87_east
#print axioms TR.c87_north
#print axioms TR.c87_up
#print axioms TR.c88_wire
#print axioms TR.c88_via
#print axioms TR.c88_access_point
#print axioms TR.c89_horizontal_wire
#print axioms TR.c89_vertical_wire
#print axioms TR.c89_via
#print axioms TR.c89_access_point
#print axioms TR.c89_same_direction_no_edge
#print axioms TR.c90_track_flags
#print axioms TR.c90_restricted_layers_not_seen
#print axioms TR.c91_forbidden_lengths
#print axioms TR.c91_cost_of_path
#print axioms TR.c91_via_after_turn_not_penalised
#print axioms TR.c92_estimate_is_lower_bound
#print axioms TR.c92_zero_at_pin
#print axioms TR.c92_estimate_for_one_point
#print axioms TR.c93_near_optimal
#print axioms TR.c93_without_tables
#print axioms TR.c93_not_optimal
#print axioms TR.c94_costs_do_not_matter
#print axioms TR.c95_one_patch_per_short_run
#print axioms TR.c95_points
#print axioms TR.c96_half_via
#print axioms TR.c96_minimum_area_reached
#print axioms TR.c96_no_patch_needed
#print axioms TR.c96_patch_shape
#print axioms TR.c96_odd_width_short
#print axioms TR.c97_clean_iff
#print axioms TR.c97_better_end
#print axioms TR.c97_may_leave_box
#print axioms TR.c98_far_end_reaching
#print axioms TR.c98_area_map
#print axioms TR.c98_boundary_area
#print axioms TR.c98_far_via_missed
#print axioms TR.c99_default_via
#print axioms TR.c99_tie_depends_on_order
#print axioms TR.c100_generated_via
#print axioms TR.c100_cut_uncovered
#print axioms TR.c101_cut_width
#print axioms TR.c101_width_positive
#print axioms TR.c102_inter_layer_rules
#print axioms TR.c103_pitch_and_offset
#print axioms TR.c103_needs_both_directions
#print axioms TR.c104_grid_fits
#print axioms TR.c104_guides_on_lines
#print axioms TR.c104_even_layers_throw
#print axioms TR.c104_negative_die
#print axioms TR.c104_no_gcell
#print axioms TR.c104_negative_guides
#print axioms TR.c105_meaning
#print axioms TR.c105_reads_file
#print axioms TR.c105_trailing_blank
#print axioms TR.c105_guide_before_net
#print axioms TR.c106_round_trip
#print axioms TR.c106_via_guide_unreadable
#print axioms TR.c107_extends_vias
#print axioms TR.c107_inserts_vias
#print axioms TR.c107_split_header
#print axioms TR.c107_no_components
#print axioms TR.c108_corner_spacing
#print axioms TR.c108_concave_missed
#print axioms TR.c108_quadrant
#print axioms TR.c109_boundary_pins
#print axioms TR.c109_neighbours_agree
#print axioms TR.c109_wire_connected
#print axioms TR.c109_wire_along_border
#print axioms TR.c110_every_change_checked
#print axioms TR.c110_clean_is_final
#print axioms TR.c110_repair_no_increase
#print axioms TR.c110_no_early_stop
#print axioms TR.c110_ripup_iterations
#print axioms TR.c110_schedule
#print axioms TR.c111_three_offsets
#print axioms TR.c111_point_inside
#print axioms TR.c112_owners
#print axioms TR.c113_follows
#print axioms TR.c113_routes
#print axioms TR.c113_initial_patches_counterexample
#print axioms TR.c114_max_rects
#print axioms TR.c114_overlap
#print axioms TR.c114_closest
#print axioms TR.c114_fixed
#print axioms TR.c114_rectangle
#print axioms TR.c114_corner_flags
#print axioms TR.c115_rect_only_iff
#print axioms TR.c115_non_rectangle_reported
#print axioms TR.c116_members
#print axioms TR.c116_back
#print axioms TR.c116_unconnected
#print axioms TR.c116_agree
#print axioms TR.c116_twice
#print axioms TR.c117_components
#print axioms TR.c117_pins
#print axioms TR.c117_nets
#print axioms TR.c117_tracks
#print axioms TR.c117_ids
#print axioms TR.c117_accepts
#print axioms TR.c118_query
#print axioms TR.c118_placed
#print axioms TR.c118_polygons_missing
#print axioms TR.c119_exact
#print axioms TR.c119_once
#print axioms TR.c119_stale
#print axioms TR.c120_vias
#print axioms TR.c120_named
#print axioms TR.c121_cells
#print axioms TR.c121_accepts
#print axioms TR.c121_orientations
#print axioms TR.c121_outline
#print axioms TR.c122_via_places
#print axioms TR.c122_cut_places
#print axioms TR.c122_cut_places_exact
#print axioms TR.c123_wire_places_partial
#print axioms TR.c123_second_track_wrong
#print axioms TR.c123_third_track_undefined
#print axioms TR.c124_stores_fresh
#print axioms TR.c124_stores_content
#print axioms TR.c125_cost_zero
#print axioms TR.c125_total
#print axioms TR.c125_no_exit
#print axioms TR.c126_ends
#print axioms TR.c126_none_overlooked
#print axioms TR.c126_moves
#print axioms TR.c126_clean_via
#print axioms TR.c127_one_wire
#print axioms TR.c127_reaches
#print axioms TR.c127_vias
#print axioms TR.c127_first
#print axioms TR.c127_grid
#print axioms TR.c127_both
#print axioms TR.c127_first_round_gap
#print axioms TR.c128_pulled_partial
#print axioms TR.c128_pulled_to_zero
#print axioms TR.c128_hidden
#print axioms TR.c129_fixed_places
#print axioms TR.c129_records
#print axioms TR.c129_too_near
#print axioms TR.c130_keeps_distance
#print axioms TR.c131_never_exits
#print axioms TR.c131_pins_placed
#print axioms TR.c131_connected
#print axioms TR.c132_within
#print axioms TR.c132_no_dangling
#print axioms TR.c132_plan
#print axioms TR.c133_in_region
#print axioms TR.c133_on_metal
#print axioms TR.c133_directions
#print axioms TR.c133_off_grid
#print axioms TR.c134_exit_iff
#print axioms TR.c134_no_division_by_zero
#print axioms TR.c134_negative_corner
#print axioms TR.c135_points_of_pin_access
#print axioms TR.c135_choice_lost
#print axioms TR.c136_pins_among
#print axioms TR.c137_fixed_shapes_partial
#print axioms TR.c137_macros_partial
#print axioms TR.c137_macro_drift_witness
#print axioms TR.c137_free_wire
#print axioms TR.c137_free_via
#print axioms TR.c137_free_cut
#print axioms TR.c138_routed_shapes
#print axioms TR.c138_free_place
#print axioms TR.c138_charged
#print axioms TR.c139_never_over
#print axioms TR.c139_patch_uncharged_witness
#print axioms TR.c140_own_access
#print axioms TR.c141_off_track
#print axioms TR.c141_marks_left_witness
#print axioms TR.c141_walk_defined
#print axioms TR.c142_blocked
#print axioms TR.c143_reserved
#print axioms TR.c144_recorded
#print axioms TR.c144_via_remembered
#print axioms TR.c144_wire_nodes
#print axioms TR.c144_patch_nodes
#print axioms TR.c144_wraps
#print axioms TR.c144_patch_beyond
#print axioms TR.c145_wires_remembered
#print axioms TR.c145_wires_forgotten
#print axioms TR.c145_vias_forgotten_partial
#print axioms TR.c145_patch_never_forgotten
#print axioms TR.c146_wires_cost_more
#print axioms TR.c146_vias_cost_more
#print axioms TR.c147_guides_of_the_net
#print axioms TR.c148_cells_of_rect
#print axioms TR.c148_cells_of_terminal
#print axioms TR.c149_one_per_pin
#print axioms TR.c149_without_access
#print axioms TR.c150_cover_guides
#print axioms TR.c151_summary
#print axioms TR.c151_adds_up
#print axioms TR.c152_report
#print axioms TR.c152_coordinates
#print axioms TR.c152_words
#print axioms TR.c152_rule_words
#print axioms TR.c152_digits_lost
#print axioms TR.c153_neighbours
#print axioms TR.c153_adjacent_cuts
#print axioms TR.c153_other_class
#print axioms TR.c154_every_pair_partial
#print axioms TR.c154_other_nets_unchecked
#print axioms TR.c154_second_layer
#print axioms TR.c154_other_nets_missed
#print axioms TR.c155_concave_corners
#print axioms TR.c155_convex_corners
#print axioms TR.c156_rules_read
#print axioms TR.c156_classes_read
#print axioms TR.c156_class_names
#print axioms TR.c156_adjacent_checked
#print axioms TR.c156_never_ends
#print axioms TR.c157_second_layers
#print axioms TR.c157_linked
#print axioms TR.c158_own_layer
#print axioms TR.c158_two_layers
#print axioms TR.c158_same_net_alone
#print axioms TR.c158_rules_ok
#print axioms TR.c159_eol_step_iff
#print axioms TR.c160_area
#print axioms TR.c160_hole_iff
#print axioms TR.c160_width_skipped
#print axioms TR.c161_shape_iff
#print axioms TR.c161_all_iff
#print axioms TR.c161_min_area_unchecked
#print axioms TR.c162_patch
#print axioms TR.c162_only_gf14
#print axioms TR.c162_patches
#print axioms TR.c163_layers
#print axioms TR.c163_even_routing
#print axioms TR.c163_names
#print axioms TR.c163_masterslice_lost
#print axioms TR.c164_min_width
#print axioms TR.c164_steps_with_max_edges
#print axioms TR.c164_steps_unchecked
#print axioms TR.c165_plain
#print axioms TR.c165_table
#print axioms TR.c165_two_widths
#print axioms TR.c165_others
#print axioms TR.c166_rules
#print axioms TR.c166_read_partial
#print axioms TR.c166_carried_over
#print axioms TR.c167_single
#print axioms TR.c167_double
#print axioms TR.c167_one_row
#print axioms TR.c167_checked
#print axioms TR.c167_mixed
#print axioms TR.c168_none
#print axioms TR.c168_starts
#print axioms TR.c168_values
#print axioms TR.c168_mistakes
#print axioms TR.c169_start
#print axioms TR.c169_accepted
#print axioms TR.c169_values
#print axioms TR.c169_number
#print axioms TR.c169_others
#print axioms TR.c169_process
#print axioms TR.c169_five_lines
#print axioms TR.c170_tried
#print axioms TR.c170_order
#print axioms TR.c170_measures
#print axioms TR.c170_mirror
#print axioms TR.c171_points
#print axioms TR.c171_no_race
#print axioms TR.c171_deterministic
#print axioms TR.c172_atomic
#print axioms TR.c172_plain_partial
#print axioms TR.c172_lost
#print axioms TR.c173_stored
#print axioms TR.c173_any_order
#print axioms TR.c173_skipped
#print axioms TR.c173_refused
#print axioms TR.c173_span
#print axioms TR.c173_twice_accepted
#print axioms TR.c173_file
#print axioms TR.c173_names
#print axioms TR.c174_edges
#print axioms TR.c174_undefined
#print axioms TR.c174_cuts
#print axioms TR.c174_pins
#print axioms TR.c174_rects
#print axioms TR.c174_outline
#print axioms TR.c174_corners
#print axioms TR.c174_corner_view
#print axioms TR.c175_partial
#print axioms TR.c175_metal
#print axioms TR.c175_witness
#print axioms TR.c176_comparison
#print axioms TR.c176_order
#print axioms TR.c176_unique
#print axioms TR.c176_shuffle
#print axioms TR.c176_overflow
#print axioms TR.c177_loop
#print axioms TR.c177_loop_unique
#print axioms TR.c177_loop_ends
#print axioms TR.c177_detailed_routing
#print axioms TR.c177_runs
#print axioms TR.c178_batches
#print axioms TR.c178_schedules
#print axioms TR.c178_threads
#print axioms TR.c178_one_thread_partial
#print axioms TR.c178_witness
#print axioms TR.c179_writable
#print axioms TR.c179_check
#print axioms TR.c179_file
#print axioms TR.c180_same_file_partial
#print axioms TR.c180_repeated
#print axioms TR.c180_runs
#print axioms TR.c180_one_thread
#print axioms TR.c181_pins
#print axioms TR.c181_nets
#print axioms TR.c181_connected
#print axioms TR.c181_wired
#print axioms TR.c181_track_assignment
#print axioms TR.c181_terminals
#print axioms TR.c181_short_wire
#print axioms TR.c182_all_wired
#print axioms TR.c182_hang
#print axioms TR.c182_net_connected
#print axioms TR.c183_component_partial
#print axioms TR.c183_distinct
#print axioms TR.c183_cover
#print axioms TR.c183_property
#print axioms TR.c184_sections_partial
#print axioms TR.c184_counted
#print axioms TR.c184_empty
#print axioms TR.c185_exact
#print axioms TR.c185_near
#print axioms TR.c185_track_partial
#print axioms TR.c185_track_exact
#print axioms TR.c185_shifted
#print axioms TR.c185_row_partial
#print axioms TR.c185_gcell
#print axioms TR.c185_again
#print axioms TR.c186_die_partial
#print axioms TR.c186_rectangle
#print axioms TR.c186_polygon
#print axioms TR.c187_net_partial
#print axioms TR.c187_connections
#print axioms TR.c187_old_wires
#print axioms TR.c187_lost
#print axioms TR.c188_snet_partial
#print axioms TR.c188_wires
#print axioms TR.c188_lost
#print axioms TR.c188_virtual
#print axioms TR.c189_pin_partial
#print axioms TR.c189_plain
#print axioms TR.c189_moved
#print axioms TR.c189_port
#print axioms TR.c190_start
#print axioms TR.c190_box
#print axioms TR.c190_next
#print axioms TR.c190_run
#print axioms TR.c191_via_partial
#print axioms TR.c191_plain
#print axioms TR.c191_grows
#print axioms TR.c192_blockage_partial
#print axioms TR.c192_all
#print axioms TR.c192_inj
#print axioms TR.c193_ndr_partial
#print axioms TR.c193_region_partial
#print axioms TR.c193_inj
#print axioms TR.c194_fill_partial
#print axioms TR.c194_slot
#print axioms TR.c194_via
#print axioms TR.c195_parts
#print axioms TR.c195_file_partial
#print axioms TR.c195_spoiled
#print axioms TR.c195_names
#print axioms TR.c196_definition_partial
#print axioms TR.c196_exact
#print axioms TR.c196_types
#print axioms TR.c196_empty
#print axioms TR.c197_group_partial
#print axioms TR.c197_same
#print axioms TR.c197_boxes
#print axioms TR.c197_refused
#print axioms TR.c198_case_partial
#print axioms TR.c198_version
#print axioms TR.c198_off
#print axioms TR.c199_doc_partial
#print axioms TR.c199_namemap
#print axioms TR.c199_insensitive
#print axioms TR.c200_stored
#print axioms TR.c200_not_generate
#print axioms TR.c200_skipped
#print axioms TR.c200_refused
#print axioms TR.c200_twice_accepted
#print axioms TR.c200_accepted
#print axioms TR.c201_file
#print axioms TR.c202_scaled
#print axioms TR.c202_exact
#print axioms TR.c202_no_units
#print axioms TR.c202_placed_partial
#print axioms TR.c202_mixed
#print axioms TR.c202_cut_area
#print axioms TR.c203_nets
#print axioms TR.c203_found
#print axioms TR.c203_metal
#print axioms TR.c204_live
#print axioms TR.c204_found
#print axioms TR.c205_range
#print axioms TR.c205_shared_partial
#print axioms TR.c205_top_layer
#print axioms TR.c206_wire
#print axioms TR.c206_via_partial
#print axioms TR.c206_group
#print axioms TR.c206_block_pin_via
#print axioms TR.c207_accepted
#print axioms TR.c207_ids
#print axioms TR.c207_objects
#print axioms TR.c207_sets
#print axioms TR.c207_region
#print axioms TR.c207_panel
#print axioms TR.c207_made_up_nets
#print axioms TR.c208_other_processes
#print axioms TR.c208_only_added
#print axioms TR.c208_corner
#print axioms TR.c208_corner_exact
#print axioms TR.c208_nothing_else
#print axioms TR.c208_through
#print axioms TR.c209_division_by_zero
#print axioms TR.c209_count
#print axioms TR.c209_then_pin_access
#print axioms TR.c209_negative_coordinates
#print axioms TR.c210_steps_needed
#print axioms TR.c210_read
#print axioms TR.c210_tracks_exact
