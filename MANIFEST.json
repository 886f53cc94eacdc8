{
 "claims": [
  {
   "property": "C01",
   "status": "proved",
   "theorems": [
    "Slsm.C01_new_succeeds",
    "Slsm.C01_layout",
    "Slsm.C01_bijection"
   ],
   "note": "width*height node/element numbering for all sizes whose (w+1)(h+1) fits 32 bits"
  },
  {
   "property": "C02",
   "status": "proved",
   "theorems": [
    "Slsm.C02_neighbours",
    "Slsm.C02_symmetric",
    "Slsm.C02_isDomain_iff",
    "Slsm.C02_zero_width"
   ],
   "note": "also proves by witness (C02_zero_width) that a mesh of width 0 gets a wrong right neighbour"
  },
  {
   "property": "C03",
   "status": "proved",
   "theorems": [
    "Slsm.C03_corners",
    "Slsm.C03_reverse",
    "Slsm.C03_count"
   ],
   "note": ""
  },
  {
   "property": "C04",
   "status": "proved",
   "theorems": [
    "Slsm.C04_getElement",
    "Slsm.C04_getElement_exact",
    "Slsm.C04_tolerance_witness"
   ],
   "note": "over the reals; the code adds 1e-6, so containment holds up to that tolerance; C04_tolerance_witness shows the exact claim fails inside the tolerance"
  },
  {
   "property": "C05",
   "status": "proved",
   "theorems": [
    "Slsm.C05_getClosestNode"
   ],
   "note": "over the reals"
  },
  {
   "property": "C06",
   "status": "proved",
   "theorems": [
    "Slsm.C06_priority_queue"
   ],
   "note": "for every total-preorder comparison (doubles without NaN)"
  },
  {
   "property": "C07",
   "status": "proved",
   "theorems": [
    "Slsm.C07_handles_stable",
    "Slsm.C07_set"
   ],
   "note": ""
  },
  {
   "property": "C08",
   "status": "partial",
   "theorems": [
    "Slsm.C08_memory_safe_partial",
    "Slsm.C08_push_after_pop_out_of_range"
   ],
   "note": "proved for histories with at most capacity pushes over the lifetime, for arbitrary comparison behaviour; the full claim (push guarded only by its own check) is false: C08_push_after_pop_out_of_range"
  },
  {
   "property": "C09",
   "status": "proved",
   "theorems": [
    "Slsm.C09_exits",
    "Slsm.C09_no_other_exit"
   ],
   "note": ""
  },
  {
   "property": "C10",
   "status": "proved",
   "theorems": [
    "Slsm.C10_drain_sorts"
   ],
   "note": ""
  },
  {
   "property": "C11",
   "status": "proved",
   "theorems": [
    "Slsm.C11_stale_set",
    "Slsm.C11_stale_set_values"
   ],
   "note": "order among equal values may change; values come out in the same order"
  },
  {
   "property": "C12",
   "status": "proved",
   "theorems": [
    "Slsm.C12_self_test",
    "Slsm.C12_self_test_misses_last"
   ],
   "note": "C12_self_test_misses_last: the self test never compares the last entry"
  },
  {
   "property": "C13",
   "status": "proved",
   "theorems": [
    "Slsm.C13_distance_safe",
    "Slsm.C13_velocity_safe"
   ],
   "note": "for every arithmetic (no laws of the numbers assumed), every activity/mask flags; IsGrid holds for every constructed mesh"
  },
  {
   "property": "C14",
   "status": "proved",
   "theorems": [
    "Slsm.C14_exit_iff",
    "Slsm.C14_velocity_exit_only",
    "Slsm.C14_velocity_exit"
   ],
   "note": "with the debugging switch on, order laws of the numbers are needed so that the heap self test passes; C14_velocity_exit_only: the velocity extension exits only without interface or when a run reaches a node whose weights sum to zero (Stuck)"
  },
  {
   "property": "C15",
   "status": "proved",
   "theorems": [
    "Slsm.C15_every_node_once"
   ],
   "note": "the march refines the abstract machine of Spec/FMM.lean; every arithmetic"
  },
  {
   "property": "C16",
   "status": "proved",
   "theorems": [
    "Slsm.C16_zero",
    "Slsm.C16_value",
    "Slsm.C16_bounds",
    "Slsm.C16_straight_line"
   ],
   "note": "over the reals"
  },
  {
   "property": "C17",
   "status": "partial",
   "theorems": [
    "Slsm.C17_side_kept_partial",
    "Slsm.C17_interface_side_partial",
    "Slsm.C17_side_can_change"
   ],
   "note": "the claim is false: C17_side_can_change (value 2^-60 becomes negative). Proved: sides are kept unless such a tiny value or a stale second stencil value with |d2|>4|d1| occurs; interface nodes always keep their side. Over the reals"
  },
  {
   "property": "C18",
   "status": "proved",
   "theorems": [
    "Slsm.C18_no_side_effects",
    "Slsm.C18_nothing_to_extend",
    "Slsm.C18_reach"
   ],
   "note": "also: exactly the nodes reachable from the interface through active nodes are visited; every arithmetic"
  },
  {
   "property": "C19",
   "status": "proved",
   "theorems": [
    "Slsm.C19_maximum_principle"
   ],
   "note": "over the reals"
  },
  {
   "property": "C20",
   "status": "proved",
   "theorems": [
    "Slsm.C20_update_solves",
    "Slsm.C20_march_solves"
   ],
   "note": "over the reals; also for the final values of a whole march"
  },
  {
   "property": "C21",
   "status": "partial",
   "theorems": [
    "Slsm.C21_stencil_partial",
    "Slsm.C21_stale_second_value"
   ],
   "note": "the claim is false: C21_stale_second_value (whole march on a 3x1 mesh). Proved: the stencil differs from the intended one only by an additional stale second value"
  },
  {
   "property": "C22",
   "status": "proved",
   "theorems": [
    "Slsm.C22_accepts_iff",
    "Slsm.C22_result",
    "Slsm.C22_target",
    "Slsm.C22_cheese"
   ],
   "note": "every arithmetic (NaN included); also the constructor with a target and, over the reals, the default Swiss-cheese shape (accepted from 75x75)"
  },
  {
   "property": "C23",
   "status": "proved",
   "theorems": [
    "Slsm.C23_holes_exact",
    "Slsm.C23_order_irrelevant"
   ],
   "note": "over the reals; order independence up to permutation"
  },
  {
   "property": "C24",
   "status": "proved",
   "theorems": [
    "Slsm.C24_segment_distance",
    "Slsm.C24_short_segment"
   ],
   "note": "over the reals; segments with squared length below 1e-6 are treated as a point (error at most 1e-3)"
  },
  {
   "property": "C25",
   "status": "proved",
   "theorems": [
    "Slsm.C25_polygon_value",
    "Slsm.C25_polygon_distance"
   ],
   "note": "over the reals"
  },
  {
   "property": "C26",
   "status": "partial",
   "theorems": [
    "Slsm.C26_winding_partial",
    "Slsm.C26_integer_polygons",
    "Slsm.C26_rectangle",
    "Slsm.C26_truncation_error"
   ],
   "note": "proved: the test equals a winding number of truncated cross products for all polygons; equals the true winding number whenever the cross products are integers (integer vertices). False in general: C26_truncation_error"
  },
  {
   "property": "C27",
   "status": "proved",
   "theorems": [
    "Slsm.C27_constructed",
    "Slsm.C27_narrow_band",
    "Slsm.C27_after_calls",
    "Slsm.C27_reinitialise"
   ],
   "note": "every arithmetic, every reachable history (Spec/History.lean)"
  },
  {
   "property": "C28",
   "status": "partial",
   "theorems": [
    "Slsm.C28_listed_are_flagged_partial",
    "Slsm.C28_constructed_partial",
    "Slsm.C28_flags_accumulate",
    "Slsm.C28_stale_flag"
   ],
   "note": "proved: listed mines are always flagged, and exactly they after construction. The converse is false after a second reinitialisation (flags are never cleared): C28_flags_accumulate, C28_stale_flag"
  },
  {
   "property": "C29",
   "status": "proved",
   "theorems": [
    "Slsm.C29_update_safe",
    "Slsm.C29_update_effect"
   ],
   "note": "every arithmetic; every reachable history"
  },
  {
   "property": "C30",
   "status": "proved",
   "theorems": [
    "Slsm.C30_mask_permanent",
    "Slsm.C30_masked_value",
    "Slsm.C30_mask_safe",
    "Slsm.C30_mask_discs",
    "Slsm.C30_mask_points"
   ],
   "note": "every arithmetic; every later sequence of calls"
  },
  {
   "property": "C31",
   "status": "proved",
   "theorems": [
    "Slsm.C31_edge",
    "Slsm.C31_fixed_edge",
    "Slsm.C31_switch_kept",
    "Slsm.C31_free_edge"
   ],
   "note": "every arithmetic for safety and frame; free edge over totally ordered numbers"
  },
  {
   "property": "C32",
   "status": "proved",
   "theorems": [
    "Slsm.C32_safe",
    "Slsm.C32_interface_velocity",
    "Slsm.C32_frame",
    "Slsm.C32_bounds",
    "Slsm.C32_unnormalised"
   ],
   "note": "over the reals; interface nodes outside the narrow band (masked or fixed) get the unnormalised sum: C32_unnormalised; the bound is therefore proved when every interface node is in the band, or has a boundary point on it, or takes its velocity from points at rest"
  },
  {
   "property": "C33",
   "status": "proved",
   "theorems": [
    "Slsm.C33_time_step",
    "Slsm.C33_noise"
   ],
   "note": "over the reals, 0<moveLimit, 0<dt, 0<=T; the generator is an arbitrary function"
  },
  {
   "property": "C34",
   "status": "partial",
   "theorems": [
    "Slsm.C34_safe",
    "Slsm.C34_value",
    "Slsm.C34_nonneg",
    "Slsm.C34_plane_partial",
    "Slsm.C34_flat_corner",
    "Slsm.C34_plane_fails",
    "Slsm.C34_narrow_domain_undefined"
   ],
   "note": "planes are exact except at domain corners where both slopes are below 1e-6 (C34_flat_corner, C34_plane_fails); width 3 is undefined behaviour (C34_narrow_domain_undefined)"
  },
  {
   "property": "C35",
   "status": "proved",
   "theorems": [
    "Slsm.C35_convex",
    "Slsm.C35_optimal_weights",
    "Slsm.C35_bounds",
    "Slsm.C35_cubic_exact",
    "Slsm.C35_gradient_exact"
   ],
   "note": "over the reals; also through computeGradients for sums of cubics"
  },
  {
   "property": "C36",
   "status": "proved",
   "theorems": [
    "Slsm.C36_reachable",
    "Slsm.C36_node_status",
    "Slsm.C36_element_status"
   ],
   "note": "over the reals"
  },
  {
   "property": "C37",
   "status": "proved",
   "theorems": [
    "Slsm.C37_points_on_contour",
    "Slsm.C37_interpolant"
   ],
   "note": "over the reals"
  },
  {
   "property": "C38",
   "status": "proved",
   "theorems": [
    "Slsm.C38_segments",
    "Slsm.C38_segments_exact"
   ],
   "note": "over the reals; whenever discretise returns"
  },
  {
   "property": "C39",
   "status": "proved",
   "theorems": [
    "Slsm.C39_watertight",
    "Slsm.C39_lattice",
    "Slsm.C39_points",
    "Slsm.C39_closed_curves",
    "Slsm.C39_even_ends"
   ],
   "note": "over the reals; for level sets that vary by at most one along crossed edges, with the nodes near the contour active or masked. Lattice points on the contour are covered too (C39_lattice)"
  },
  {
   "property": "C40",
   "status": "proved",
   "theorems": [
    "Slsm.C40_point_lengths"
   ],
   "note": "over the reals"
  },
  {
   "property": "C41",
   "status": "partial",
   "theorems": [
    "Slsm.C41_safe_partial",
    "Slsm.C41_exact_condition_partial",
    "Slsm.C41_fresh_band_partial",
    "Slsm.C41_reinitialised_partial",
    "Slsm.C41_holes_partial",
    "Slsm.C41_separate_holes_partial",
    "Slsm.C41_plain_partial",
    "Slsm.C41_thin_domain_undefined",
    "Slsm.C41_hole_at_edge_undefined",
    "Slsm.C41_lattice_holes_partial",
    "Slsm.C41_touching_holes_undefined"
   ],
   "note": "the claim is false: C41_thin_domain_undefined, C41_hole_at_edge_undefined, C41_touching_holes_undefined. Proved: the exact condition for the call to be defined (C41_exact_condition_partial), in particular for level sets built from holes (separate ones off the lattice, or with lattice centres and whole radii: C41_lattice_holes_partial); over the reals, values varying by at most one along crossed edges. After reinitialise the last condition always holds (C41_reinitialised_partial)"
  },
  {
   "property": "C42",
   "status": "proved",
   "theorems": [
    "Slsm.C42_symmetric",
    "Slsm.C42_needs_generic"
   ],
   "note": "over the reals; the condition is needed: C42_needs_generic"
  },
  {
   "property": "C43",
   "status": "proved",
   "theorems": [
    "Slsm.C43_limits"
   ],
   "note": "over the reals; whenever discretise returns"
  },
  {
   "property": "C44",
   "status": "partial",
   "theorems": [
    "Slsm.C44_normals_partial",
    "Slsm.C44_plane",
    "Slsm.C44_touched",
    "Slsm.C44_blend_ne_zero",
    "Slsm.C44_domain_sum",
    "Slsm.C44_domain_not_unit",
    "Slsm.C44_zero_gradient"
   ],
   "note": "over the reals, for a boundary just discretised from a well behaved level set. The claim is false for points within the move limit of the domain edge: their normals are not divided by anything and need not be unit vectors (C44_domain_sum, C44_domain_not_unit). Missing: points where the code divides zero by zero (C44_zero_gradient shows that this can happen)"
  },
  {
   "property": "C45",
   "status": "partial",
   "theorems": [
    "Slsm.C45_frame",
    "Slsm.C45_inside_outside",
    "Slsm.C45_total",
    "Slsm.C45_returns",
    "Slsm.C45_cells_partial",
    "Slsm.C45_total_area",
    "Slsm.C45_bounds",
    "Slsm.C45_total_bounds",
    "Slsm.C45_complement",
    "Slsm.C45_saddle_segments",
    "Slsm.C45_plain",
    "Slsm.C45_saddle_tie",
    "Slsm.C45_measure_partial",
    "Slsm.C45_total_measure_partial"
   ],
   "note": "frame, inside/outside and total hold for any arithmetic; values, bounds and exchange over the reals for a boundary just discretised. C45_saddle_tie: counterexample (a saddle whose centre value is exactly zero gets area 1/4 although its segments leave 3/4). C45_measure_partial and C45_total_measure_partial: the area fraction of a cell and the returned area are Lebesgue measures of sets of points of the plane (Spec/Region.lean); partial because of the same tie."
  },
  {
   "property": "C46",
   "status": "partial",
   "theorems": [
    "Slsm.Optimise.C46_cfl_partial",
    "Slsm.Optimise.C46_discretised",
    "Slsm.Optimise.C46_fails"
   ],
   "note": "C46_cfl_partial: limit respected for every solver answer and every reached object if side limits of flagged points do not exceed the limit; C46_discretised discharges that for discretised boundaries (limit >= 1e-6). C46_fails: counterexample without the side condition. Real arithmetic; needs timeStep != 0 (velocity is displacement/timeStep)."
  },
  {
   "property": "C47",
   "status": "partial",
   "theorems": [
    "Slsm.Optimise.C47_domain_partial",
    "Slsm.Optimise.C47_fixed",
    "Slsm.Optimise.C47_reuse",
    "Slsm.Optimise.C47_remembered",
    "Slsm.Optimise.C47_fails",
    "Slsm.Optimise.C47_stale_fails"
   ],
   "note": "C47_domain_partial (flagged points), C47_fixed (first call). The full claim is false: C47_fails (unflagged points are not limited), C47_stale_fails (on reuse a fixed point gets an old displacement; C47_reuse and C47_remembered say exactly which)."
  },
  {
   "property": "C48",
   "status": "proved",
   "theorems": [
    "Slsm.Optimise.C48_consistent"
   ],
   "note": "For every reached object and every solver answer; velocity part requires timeStep != 0."
  },
  {
   "property": "C49",
   "status": "proved",
   "theorems": [
    "Slsm.Optimise.C49_box",
    "Slsm.Optimise.C49_terminates"
   ],
   "note": "C49_box for every position of the reduced problem; C49_terminates for the whole first part of solve. Real arithmetic."
  },
  {
   "property": "C50",
   "status": "proved",
   "theorems": [
    "Slsm.Optimise.C50_map",
    "Slsm.Optimise.C50_terminates"
   ],
   "note": "C50_map in real arithmetic; C50_terminates for every number type."
  },
  {
   "property": "C51",
   "status": "partial",
   "theorems": [
    "Slsm.Optimise.C51_quiet_partial",
    "Slsm.Optimise.C51_fails"
   ],
   "note": "C51_quiet_partial: 99% of the predicted change stays below the distance, if no movable point is flagged isDomain. Full claim false: C51_fails gives a removed constraint that the returned solution violates."
  },
  {
   "property": "C52",
   "status": "partial",
   "theorems": [
    "Slsm.Optimise.C52_exact",
    "Slsm.Optimise.C52_safe_partial",
    "Slsm.Optimise.C52_fails",
    "Slsm.Optimise.C52_reuse"
   ],
   "note": "C52_exact: exact condition for the first solve to succeed or be undefined; C52_safe_partial sufficient conditions; C52_reuse second call. Full claim false: C52_fails (two constraints, one removed)."
  },
  {
   "property": "C53",
   "status": "proved",
   "theorems": [
    "Slsm.Optimise.C53_value",
    "Slsm.Optimise.C53_gradient"
   ],
   "note": "If no constraint was removed (otherwise solve is undefined or has no constraint left, C52)."
  },
  {
   "property": "C54",
   "status": "proved",
   "theorems": [
    "Slsm.Sensitivity.C54_restores",
    "Slsm.Sensitivity.C54_accuracy",
    "Slsm.Sensitivity.C54_quadratic"
   ],
   "note": "over the reals; the call-back is an arbitrary function of the point"
  },
  {
   "property": "C55",
   "status": "proved",
   "theorems": [
    "Slsm.Sensitivity.C55_zero",
    "Slsm.Sensitivity.C55_local",
    "Slsm.Sensitivity.C55_formula",
    "Slsm.Sensitivity.C55_discretised",
    "Slsm.Sensitivity.C55_flat",
    "Slsm.Sensitivity.C55_bend"
   ],
   "note": "over the reals; neighbours and lengths as set by discretise (C55_discretised)"
  },
  {
   "property": "C56",
   "status": "proved",
   "theorems": [
    "Slsm.IO.C56_roundtrip",
    "Slsm.IO.C56_roundtrip_at",
    "Slsm.IO.C56_exit"
   ],
   "note": "For any number type whose eight bytes determine the number (proved for IEEE doubles, bit for bit). The file system is a map from names to contents."
  },
  {
   "property": "C57",
   "status": "partial",
   "theorems": [
    "Slsm.IO.C57_roundtrip_partial",
    "Slsm.IO.C57_roundtrip_at_partial",
    "Slsm.IO.C57_error",
    "Slsm.IO.C57_error_real",
    "Slsm.IO.C57_real_partial",
    "Slsm.IO.C57_assertions_fails",
    "Slsm.IO.C57_nonfinite_fails",
    "Slsm.IO.C57_infinite_fails"
   ],
   "note": "Partial: finite numbers only and no index checks in the library. C57_nonfinite_fails, C57_infinite_fails: with an infinite or NaN velocity or distance, loading silently stops. C57_assertions_fails: the code evaluates signedDistance[nNodes] after the last number, so that a library with assertions aborts on every valid file. C57_error: 1e-6 for doubles (rounding twice), half of it for exact reading. Character-level model of %lf and operator>>."
  },
  {
   "property": "C58",
   "status": "proved",
   "theorems": [
    "Slsm.IO.C58_injective",
    "Slsm.IO.C58_sorted",
    "Slsm.IO.C58_order_limit",
    "Slsm.IO.C58_no_overwrite"
   ],
   "note": "C58_order_limit: from 10000 on the names no longer sort like the numbers."
  },
  {
   "property": "C59",
   "status": "partial",
   "theorems": [
    "Slsm.IO.C59_text_partial",
    "Slsm.IO.C59_format_fails",
    "Slsm.IO.C59_binary_fails"
   ],
   "note": "Partial: text files, and the number of lines is compared modulo 2^32. C59_format_fails: the right number of lines in the wrong format is undefined behaviour. C59_binary_fails: binary files of any length are accepted."
  },
  {
   "property": "C60",
   "status": "partial",
   "theorems": [
    "Slsm.IO.C60_same_partial",
    "Slsm.IO.C60_fails"
   ],
   "note": "Partial: only with both flags false. C60_fails: whenever a flag is set the contents differ, because the flags are not passed on."
  },
  {
   "property": "C61",
   "status": "partial",
   "theorems": [
    "Slsm.Random.C61_reproducible_partial",
    "Slsm.Random.C61_without_normal_partial",
    "Slsm.Random.C61_fails",
    "Slsm.Random.C61_rerun_fails",
    "Slsm.Random.C61_getSeed"
   ],
   "note": "Engine and distributions of the library are parameters. Partial: the cached second deviate of the default normal distribution survives setSeed (C61_fails, C61_rerun_fails), so reproducibility holds exactly if normal() was called an even number of times before, or is not called afterwards."
  },
  {
   "property": "C62",
   "status": "proved",
   "theorems": [
    "Slsm.C62_cheese",
    "Slsm.C62_request",
    "Slsm.C62_request_huge"
   ],
   "note": "Over the reals. C62_request_huge: for a domain that is too small, memory for almost 2^32 holes can be requested before the size check."
  },
  {
   "property": "C63",
   "status": "proved",
   "theorems": [
    "Slsm.C63_repeatable"
   ],
   "note": "over the reals"
  },
  {
   "property": "C64",
   "status": "proved",
   "theorems": [
    "Slsm.Optimise.C64_objective"
   ],
   "note": "Real arithmetic, first call."
  },
  {
   "property": "C65",
   "status": "proved",
   "theorems": [
    "Slsm.Optimise.C65_accepts"
   ],
   "note": ""
  },
  {
   "property": "C66",
   "status": "proved",
   "theorems": [
    "Slsm.Optimise.C66_targets"
   ],
   "note": "First call, no constraint removed; isDomain points excluded (their cap makes the change non-linear)."
  },
  {
   "property": "C67",
   "status": "proved",
   "theorems": [
    "Slsm.IO.C67_points",
    "Slsm.IO.C67_segments",
    "Slsm.IO.C67_area",
    "Slsm.IO.C67_discretise"
   ],
   "note": "Any faithful number format (proved for doubles and reals)."
  },
  {
   "property": "C68",
   "status": "proved",
   "theorems": [
    "Slsm.IO.C68_levelSet",
    "Slsm.IO.C68_area",
    "Slsm.IO.C68_reachable"
   ],
   "note": "Any faithful number format; C68_reachable for every level set of a program over the reals."
  },
  {
   "property": "C69",
   "status": "proved",
   "theorems": [
    "Slsm.Program.C69_current",
    "Slsm.Program.C69_motion",
    "Slsm.Program.C69_multipliers",
    "Slsm.Program.C69_start",
    "Slsm.Program.C69_cfl",
    "Slsm.Program.C69_refresh"
   ],
   "note": "Main loop of the programs in demos, as a parametrised program; the solver and the random number generator are parameters. C69_motion says what moves (any program, with noise or without), C69_multipliers how the points move (without noise), C69_start how the loop begins. Averaged (every interface node in the band, or with a point on it, or fed by fixed points) is a hypothesis of C69_cfl, because of C32_unnormalised."
  },
  {
   "property": "C70",
   "status": "partial",
   "theorems": [
    "Slsm.Program.C70_defined_partial",
    "Slsm.Program.C70_area_partial",
    "Slsm.Program.C70_perimeter_partial",
    "Slsm.Program.C70_refresh_partial",
    "Slsm.Program.C70_refresh_undefined",
    "Slsm.Program.C70_step_partial"
   ],
   "note": "Partial: C70_defined_partial goes up to the new level set; the whole iteration (C70_step_partial) is defined if that level set is well behaved (Tame), and undefined if it is gentle and seen but not tidy (C70_refresh_undefined). More than one satisfied inequality constraint: C52."
  },
  {
   "property": "C71",
   "status": "proved",
   "theorems": [
    "Slsm.Program.C71_time",
    "Slsm.Program.C71_reinitialised"
   ],
   "note": "C71_reinitialised: for every sequence of iterations."
  },
  {
   "property": "C72",
   "status": "proved",
   "theorems": [
    "Slsm.Program.C72_uniform",
    "Slsm.Program.C72_monotone"
   ],
   "note": "Area minimisation program; any solver."
  },
  {
   "property": "C73",
   "status": "partial",
   "theorems": [
    "Slsm.Program.C73_value",
    "Slsm.Program.C73_range"
   ],
   "note": "C73_value describes the sensitivity everywhere, including the case in which memory is accessed out of range (closest node on the edge of the domain and the point not on it); the property holds outside that case."
  },
  {
   "property": "C74",
   "status": "partial",
   "theorems": [
    "Slsm.Program.C74_weighted",
    "Slsm.Program.C74_constrained_partial",
    "Slsm.Program.C74_match_uncorrected"
   ],
   "note": "Partial: holds for the constrained perimeter program and for the dumbbell and bimodal programs (C74_weighted); fails for the shape matching program, where normal vectors are never computed and the correction is zero (C74_match_uncorrected)."
  },
  {
   "property": "C75",
   "status": "partial",
   "theorems": [
    "Slsm.Optimise.C75_never_retries",
    "Slsm.Optimise.C75_fails",
    "Slsm.Optimise.C75_ignored",
    "Slsm.Optimise.C75_reduced_partial"
   ],
   "note": "False of the code: the solver is never called again (C75_never_retries), a failure in the first call of solve reads an uninitialised return code (C75_fails), a later one is reported as success (C75_ignored). What holds is the reduction of the targets (C75_reduced_partial). NLopt reports failures by exceptions, so that return codes are not negative."
  },
  {
   "property": "C76",
   "status": "proved",
   "theorems": [
    "Slsm.Program.C76_iteration",
    "Slsm.Program.C76_run",
    "Slsm.Program.C76_order",
    "Slsm.Program.C76_ends",
    "Slsm.Program.C76_repeated"
   ],
   "note": "Over the reals. If a time step is longer than the interval, consecutive records have the same time (C76_repeated); minimise_perimeter.cpp:238-245 then divides by zero. The record of dumbbell.cpp and bimodal.cpp holds the mismatch before the last move; this is how the model defines it, not a theorem."
  },
  {
   "property": "C77",
   "status": "proved",
   "theorems": [
    "Slsm.Program.C77_weight",
    "Slsm.Program.C77_perimeter",
    "Slsm.Program.C77_sensitivity"
   ],
   "note": "Over the reals. The sensitivity theorem needs that no segment joins a point with itself (see C38_segments_exact); the program leaves the sensitivity undefined (division by zero) at a point of zero length."
  },
  {
   "property": "C78",
   "status": "proved",
   "theorems": [
    "Slsm.Program.C78_box",
    "Slsm.Program.C78_centroid"
   ],
   "note": "Over the reals. With a boundary of zero length, or weights that are zero, the program divides by zero."
  },
  {
   "property": "C79",
   "status": "partial",
   "theorems": [
    "Slsm.Program.C79_acceptance",
    "Slsm.Program.C79_detailed_balance",
    "Slsm.Program.C79_history_partial",
    "Slsm.Program.C79_counts",
    "Slsm.Program.C79_first_fails",
    "Slsm.Program.C79_rejected_fails"
   ],
   "note": "exp and the random numbers are parameters; their distribution is a hypothesis. Partial: the first potential is computed with a coordinate that is not relative to the middle of the domain (C79_first_fails); a rejected trial restores the signed distances but then reinitialises them, which can move the boundary (C79_rejected_fails)."
  },
  {
   "property": "C80",
   "status": "partial",
   "theorems": [
    "Slsm.Program.C80_accepts_partial",
    "Slsm.Program.C80_outcomes",
    "Slsm.Program.C80_documented_fails"
   ],
   "note": "atof and atoi are parameters. Partial: the documented spelling --umbrella-interval is rejected; an option without its value and a file name of 100 bytes or more are undefined behaviour (C80_documented_fails)."
  },
  {
   "property": "C81",
   "status": "partial",
   "theorems": [
    "Slsm.LevelSet.C81_place",
    "Slsm.LevelSet.C81_edges_partial",
    "Slsm.LevelSet.C81_straight",
    "Slsm.LevelSet.C81_moves"
   ],
   "note": "Partial: the edges are kept, and the boundary stays at its point where it is straight (C81_straight). In general it moves: C81_place gives the new point exactly, C81_moves a case in which a second reinitialisation moves it. Over the reals."
  },
  {
   "property": "C82",
   "status": "partial",
   "theorems": [
    "Slsm.Program.C82_target",
    "Slsm.Program.C82_start",
    "Slsm.Program.C82_distance",
    "Slsm.Program.C82_constraint",
    "Slsm.Program.C82_match_record",
    "Slsm.Program.C82_length_record",
    "Slsm.Program.C82_constrained_record",
    "Slsm.Program.C82_weighted_record_partial",
    "Slsm.Program.C82_height_fails"
   ],
   "note": "Partial: the dumbbell and bimodal programs record the mismatch of the boundary before the step (C82_weighted_record_partial), and the bimodal program subtracts half of the width from the height (C82_height_fails). Areas for structures to which C45 applies (Tame, NearSeen). Over the reals."
  },
  {
   "property": "C83",
   "status": "proved",
   "theorems": [
    "Slsm.C83_matrix",
    "Slsm.C83_superposition",
    "Slsm.C83_monotone"
   ],
   "note": "Over the reals (floating-point rounding is not linear). The boundary points must lie in the domain."
  },
  {
   "property": "C84",
   "status": "proved",
   "theorems": [
    "Slsm.C84_scaling"
   ],
   "note": "Over the reals. The factor must be positive: the upwind gradient depends on the sign of the velocity."
  },
  {
   "property": "C85",
   "status": "partial",
   "theorems": [
    "Slsm.C85_reinitialise_partial",
    "Slsm.C85_velocities_partial",
    "Slsm.C85_motion_partial",
    "Slsm.C85_tiny_fails"
   ],
   "note": "Over the reals. Partial: false for values that are not zero but not above the machine epsilon (C85_tiny_fails); motion for band nodes off the edge of the domain, since edge nodes may lose material but not gain it. The discretisation of the boundary is not part of the claim."
  },
  {
   "property": "C86",
   "status": "partial",
   "theorems": [
    "Slsm.C86_reinitialise_partial",
    "Slsm.C86_velocities_partial",
    "Slsm.C86_boundary_partial",
    "Slsm.C86_old_value_kept"
   ],
   "note": "Over the reals. Partial: a node whose discrete Eikonal equation has no two solutions keeps its old value (C86_old_value_kept: the value 1000 survives on a 2 x 1 mesh), so equality holds unless the march meets such a node; values inside must be above the machine epsilon. Values on and next to the boundary are the same without exception (C86_boundary_partial)."
  },
  {
   "property": "C87",
   "status": "partial",
   "theorems": [
    "Slsm.C87_frontier_partial",
    "Slsm.C87_interior_partial",
    "Slsm.C87_nodes_partial",
    "Slsm.C87_crossing",
    "Slsm.C87_separates_partial",
    "Slsm.C87_length",
    "Slsm.C87_perimeter_partial",
    "Slsm.C87_needs_generic"
   ],
   "note": "over the reals, for level sets whose cut edges are seen (Tame). C87_crossing and C87_length need no lattice point on the contour; frontier, interior, nodes, separates and perimeter also that no saddle has centre value exactly zero (C45_saddle_tie), hence partial. C87_needs_generic: counterexample with two lattice points on the contour between two cells of the structure (two segments although everything is structure; the length counts them twice)."
  },
  {
   "property": "C88",
   "status": "proved",
   "theorems": [
    "Slsm.LevelSet.C88_exact",
    "Slsm.LevelSet.C88_again",
    "Slsm.LevelSet.C88_diagonal_fails"
   ],
   "note": "Over the reals, all grid sizes, both axes and both orientations. Nodes of the structure at distance one or more must have values above the machine epsilon (C85_tiny_fails shows why). C88_diagonal_fails: for a line at 45 degrees the value next to the line is 1/2 instead of 1/(2 sqrt 2)."
  },
  {
   "property": "C89",
   "status": "proved",
   "theorems": [
    "Slsm.LevelSet.C89_extension",
    "Slsm.LevelSet.C89_bounds"
   ],
   "note": "Over the reals. C89_extension: arbitrary velocities; C89_bounds: bounds, and the uniform case with lo = hi. The extension can only exit without interface or in a state described by FMM.Stuck (C14_velocity_exit_only); on a straight boundary neither happens."
  },
  {
   "property": "C90",
   "status": "proved",
   "theorems": [
    "Slsm.LevelSet.C90_translates"
   ],
   "note": "Over the reals, for one iteration. Nodes on the edge of the domain are excluded because update caps them at zero (C31_free_edge). After a reinitialising update the converse (nothing else is cut) is not claimed; C17 shows why it needs care."
  },
  {
   "property": "C91",
   "status": "partial",
   "theorems": [
    "Slsm.Optimise.C91_text",
    "Slsm.Optimise.C91_before_fails",
    "Slsm.Optimise.C91_after_partial",
    "Slsm.Optimise.C91_stale",
    "Slsm.Optimise.C91_never_failure",
    "Slsm.Optimise.C91_stale_fails"
   ],
   "note": "False of the code before the first solve (uninitialised return code, C91_before_fails) and after a call in which the solver failed (C91_stale, witness C91_stale_fails: reports the success of the call before); failure messages are unreachable (C91_never_failure). The text itself is right for every code (C91_text), and so is the report after a solver call that ended with a code (C91_after_partial)."
  },
  {
   "property": "C92",
   "status": "partial",
   "theorems": [
    "Slsm.C92_holes",
    "Slsm.C92_band",
    "Slsm.C92_new",
    "Slsm.C92_gradients",
    "Slsm.C92_update",
    "Slsm.C92_returns",
    "Slsm.C92_points",
    "Slsm.C92_limits",
    "Slsm.C92_boundary_partial",
    "Slsm.C92_areas",
    "Slsm.C92_structure",
    "Slsm.C92_march_exit",
    "Slsm.C92_reinit_partial",
    "Slsm.C92_reinit_differs",
    "Slsm.C92_tie_differs"
   ],
   "note": "over the reals, for all three generating symmetries: construction from holes (C92_new), narrow band, gradients, update without reinitialisation, boundary points, structure, area fractions, exits; the segments for the reflection in the diagonal, and for mirror images if no saddle has value zero at its centre (false otherwise: C92_tie_differs); reinitialised values next to the boundary (further away false: C92_reinit_differs); limits and flags of boundary points that are not equally close to a masked and an unmasked lattice point (C92_limits)"
  },
  {
   "property": "C93",
   "status": "proved",
   "theorems": [
    "Slsm.Boundary.C93_points",
    "Slsm.Boundary.C93_limits",
    "Slsm.Boundary.C93_segments",
    "Slsm.Boundary.C93_lengths"
   ],
   "note": "for every rounding with the properties of Spec/Round.lean; Lib/Binary64.lean proves them for round-to-nearest-even with the exponent range unbounded above. Infinities and NaN are not covered."
  },
  {
   "property": "C94",
   "status": "proved",
   "theorems": [
    "Slsm.Boundary.C94_safe",
    "Slsm.Boundary.C94_exact_condition",
    "Slsm.Boundary.C94_watertight",
    "Slsm.Boundary.C94_lattice",
    "Slsm.Boundary.C94_closed_curves",
    "Slsm.Boundary.C94_segments",
    "Slsm.Boundary.C94_as_exact",
    "Slsm.Boundary.C94_holes"
   ],
   "note": "for every rounding as in C93; witnesses in binary64 (disc64_case, pattern_case)"
  },
  {
   "property": "C95",
   "status": "proved",
   "theorems": [
    "Slsm.Boundary.C95_holes"
   ],
   "note": "for every rounding as in C93"
  },
  {
   "property": "C96",
   "status": "proved",
   "theorems": [
    "Slsm.Area.C96_returns",
    "Slsm.Area.C96_bounds",
    "Slsm.Area.C96_cells",
    "Slsm.Area.C96_total",
    "Slsm.Area.C96_hole"
   ],
   "note": "for every rounding as in C93; cells with corners alternately inside and outside only if the sum of the corner values is not lost in rounding (C96_cells, C96_total), all cells for C96_returns and C96_bounds"
  },
  {
   "property": "C97",
   "status": "proved",
   "theorems": [
    "Slsm.C97_safe",
    "Slsm.C97_velocities",
    "Slsm.C97_motion_safe",
    "Slsm.C97_order",
    "Slsm.C97_order_distances",
    "Slsm.C97_no_reversal"
   ],
   "note": "for every rounding as in C93; exact inequalities. The order is that of the values before a reinitialisation (C97_order_distances: of the distances if there is none)."
  },
  {
   "property": "C98",
   "status": "proved",
   "theorems": [
    "Slsm.C98_getElement",
    "Slsm.C98_getClosestNode"
   ],
   "note": "for every rounding as in C93"
  },
  {
   "property": "C99",
   "status": "proved",
   "theorems": [
    "Slsm.Random.C99_ranges",
    "Slsm.Random.C99_uniform",
    "Slsm.Random.C99_integer",
    "Slsm.Random.C99_normal",
    "Slsm.Random.C99_normalWith"
   ],
   "note": "engine and distributions of the C++ library are parameters"
  },
  {
   "property": "C100",
   "status": "proved",
   "theorems": [
    "Slsm.C100_zero",
    "Slsm.C100_value",
    "Slsm.C100_exit_iff",
    "Slsm.C100_tiny"
   ],
   "note": "for every rounding as in C93. C100_tiny (binary64) shows that the condition on the size of the values cannot be dropped."
  },
  {
   "property": "C101",
   "status": "proved",
   "theorems": [
    "Slsm.Program.C101_start_file",
    "Slsm.Program.C101_start",
    "Slsm.Program.C101_start_complete",
    "Slsm.Program.C101_saved_fails",
    "Slsm.Program.C101_shape",
    "Slsm.Program.C101_shape_points"
   ],
   "note": "For every number format (C101_start_complete, C101_saved_fails: faithful ones, as in C57). C101_saved_fails: the files of the library do not serve as starting configurations."
  },
  {
   "property": "C102",
   "status": "proved",
   "theorems": [
    "Slsm.C102_checked",
    "Slsm.LevelSet.C102_new",
    "Slsm.LevelSet.C102_reinitialise",
    "Slsm.LevelSet.C102_mask",
    "Slsm.LevelSet.C102_update",
    "Slsm.LevelSet.C102_velocities",
    "Slsm.LevelSet.C102_noise",
    "Slsm.LevelSet.C102_gradients",
    "Slsm.LevelSet.C102_discretise",
    "Slsm.LevelSet.C102_discretise_reachable",
    "Slsm.LevelSet.C102_measures",
    "Slsm.LevelSet.C102_sensitivity",
    "Slsm.LevelSet.C102_mismatch",
    "Slsm.C102_normals",
    "Slsm.C102_normals_plane",
    "Slsm.Optimise.C102_optimise",
    "Slsm.Optimise.C102_prepare",
    "Slsm.Optimise.C102_callback",
    "Slsm.Optimise.C102_solve",
    "Slsm.Optimise.C102_solver"
   ],
   "note": "Over every extension of the reals; `C102_checked` is the concrete one with a value \"undefined\". Unit normals: where the level set is not flat (it does divide by zero otherwise, C44_zero_gradient). Optimiser: calls of solve that end with a non-zero time step, every function having an effect (Responds); otherwise velocities are divided by zero."
  },
  {
   "property": "C103",
   "status": "proved",
   "theorems": [
    "Slsm.C103_derivative",
    "Slsm.C103_gradient",
    "Slsm.C103_sign",
    "Slsm.C103_step"
   ],
   "note": "C103_derivative, C103_gradient, C103_sign and C103_step are about rounded arithmetic (Spec/Round.lean); binary64 with rounding to nearest is an instance. Overflow is not modelled: slopes and velocities are bounded by hypotheses. C103_step is about the values before a possible reinitialisation (NewFrom)."
  },
  {
   "property": "C104",
   "status": "proved",
   "theorems": [
    "Slsm.C104_limit",
    "Slsm.C104_unconstrained",
    "Slsm.C104_consistent"
   ],
   "note": "About rounded arithmetic (Spec/Round.lean); overflow is not modelled, sizes are bounded by the hypothesis Moderate. As in C46 the side limit of points on the edge of the domain must not be larger than the limit on displacements (otherwise false, C46_fails). With constraints the terms can cancel, so a bound relative to the limit alone does not hold for the algorithm; the error is given relative to the sum of the sizes of the terms."
  },
  {
   "property": "C105",
   "status": "proved",
   "theorems": [
    "Slsm.C105_accuracy"
   ],
   "note": "For every rounding with relative error 2^-52 and absolute error 2^-1074, without overflow. The hypotheses of size (delta and length at least 2^-50, components of the normal at most 2, coordinates at most 2^50 delta) hold for every normal computed by the library and grids of any practical size with the default delta of 1e-4."
  },
  {
   "property": "C106",
   "status": "proved",
   "theorems": [
    "Slsm.C106_average",
    "Slsm.C106_bounds",
    "Slsm.C106_far",
    "Slsm.C106_on"
   ],
   "note": "For every rounding with relative error 2^-52 and absolute error 2^-1074, without overflow. Interface nodes outside the narrow band keep the unnormalised sum (see C32) and are not covered by the average."
  },
  {
   "property": "C107",
   "status": "partial",
   "theorems": [
    "Slsm.LevelSet.C107_segment",
    "Slsm.LevelSet.C107_any_segment",
    "Slsm.LevelSet.C107_inside_partial",
    "Slsm.LevelSet.C107_whole_inside",
    "Slsm.LevelSet.C107_value",
    "Slsm.LevelSet.C107_any_value",
    "Slsm.LevelSet.C107_whole_polygon"
   ],
   "note": "For every rounding with relative error 2^-52 and absolute error 2^-1074, without overflow. The distance is proved for all polygons. The inside test is proved for whole vertices and for polygons whose cross products are zero or at least one by the rounding margin (C107_inside_partial); for other polygons the code truncates the cross product to an integer and can be wrong (C26_truncation_error)."
  },
  {
   "property": "C108",
   "status": "proved",
   "theorems": [
    "Slsm.C108_update",
    "Slsm.C108_march",
    "Slsm.C108_reinitialise"
   ],
   "note": "For every rounding with relative error 2^-52 and absolute error 2^-1074, without overflow. S must bound the final values (at most 2^31). The equation is the one with the upwind values the code chooses (C20, C21)."
  },
  {
   "property": "C109",
   "status": "proved",
   "theorems": [
    "Slsm.C109_returns",
    "Slsm.C109_cone",
    "Slsm.C109_direction",
    "Slsm.C109_discretised",
    "Slsm.C109_plane"
   ],
   "note": "For every rounding with relative error 2^-52 and absolute error 2^-1074, without overflow. Points without a record in the narrow band and points on the domain edge are not covered (C44 shows what the code does there in real arithmetic); at most 2^20 records per point (the mesh has four slots per node)."
  },
  {
   "property": "C110",
   "status": "proved",
   "theorems": [
    "Slsm.C110_time_step",
    "Slsm.C110_noise"
   ],
   "note": "For every rounding with relative error 2^-52 and absolute error 2^-1074, without overflow. The random number generator is a parameter: any function from its state to a number and a new state. Points of length zero are excluded (the code divides by the square root of the length)."
  },
  {
   "property": "C111",
   "status": "proved",
   "theorems": [
    "Slsm.C111_perimeter",
    "Slsm.C111_curvature",
    "Slsm.C111_drift",
    "Slsm.C111_safe",
    "Slsm.C111_discretised",
    "Slsm.C111_length"
   ],
   "note": "For every rounding with relative error 2^-52 and absolute error 2^-1074, without overflow. The accuracy of the curvature needs a length of the point of at least 2^-50 and components of the normal of at most 2 (C109 bounds them); the error of the central difference against the derivative is not part of the claim."
  },
  {
   "property": "C112",
   "status": "proved",
   "theorems": [
    "Slsm.Rounding.C112_weight",
    "Slsm.Rounding.C112_point_length",
    "Slsm.Rounding.C112_integral",
    "Slsm.Rounding.C112_discretised",
    "Slsm.Rounding.C112_perimeter"
   ],
   "note": "For every rounding with relative error 2^-52 and absolute error 2^-1074, without overflow. The error of the ten-part rule against the line integral on segments that cross a kink is bounded over the reals (weighted perimeter of the demos), not here; the centre of mass is not part of the claim."
  }
 ]
}