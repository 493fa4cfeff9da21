S = "Rbprm.State."
C("C01", "proved", [S+"C01_removeContact"])
C("C02", "proved", [S+"C02_history_consistent", S+"C02_duplicate_creation_breaks"])
C("C03", "proved", [S+"C03_removeFirst", S+"C03_fifo"])
C("C04", "proved", [S+"C04_variations", S+"C04_symmetric", S+"C04_self"])
C("C05", "proved", [S+"C05_creations", S+"C05_breaks", S+"C05_classification"])
C("C06", "proved", [S+"C06_fixed", S+"C06_partition", S+"C06_allVariations"])
C("C07", "partial", [S+"C07_freeVariations_partial", S+"C07_exact", S+"C07_violated"],
  "The code throws std::out_of_range whenever an effector is free in both states (C07_violated); the partial theorem characterises exactly when it throws and what it returns otherwise.")
C("C08", "partial", [S+"C08_copy_partial", S+"C08_assign_violated"],
  "operator= does not copy robustness (C08_assign_violated); everything else is copied.")
C("C09", "proved", [S+"C09_print_consistent", S+"C09_print_overrun", S+"C09_print_prefix"])
C("C10", "proved", [S+"C10_effectorDistance", S+"C10_symmetric"], "squared distances")
K = "Rbprm.Contact."
C("C11", "proved", [K+"C11_maintain_combinatorial", K+"C11_single_contact"])
C("C12", "proved", [K+"C12_enumeration", K+"C12_position"])
C("C13", "proved", [K+"C13_sortLimbs"])
C("C14", "partial", [K+"C14_affordances_partial", K+"C14_substring_violated", K+"C14_missing_type_violated"],
  "Filters are looked up by substring and unknown affordance types dereference end(); the partial theorem covers unambiguous filters over known types.")
C("C15", "partial", [K+"C15_setCollisionFree", K+"C15_maintain_contacts", K+"C15_stability_collision_violated"],
  "Proved without the maintain-stability option; with it the state taken by the recursion is not collision checked again (violated).")
C("C16", "partial", [K+"C16_stability_rec", K+"C16_maintain_stable_partial", K+"C16_failed_projection_violated"],
  "A stable flag can come from a failed projection (then the report's success is false); proved for successful reports.")
C("C17", "partial", [K+"C17_reachable", K+"C17_generate_contact_partial", K+"C17_postural_restored", K+"C17_postural_violated"],
  "Full characterisation when the postural-task pass leaves no stale flag; otherwise the result holds uninitialised data (violated).")
C("C19", "partial", [K+"C19_gen_contacts_partial", K+"C19_two_creations_violated"],
  "Option restored and only free limbs extended always; the creation bound holds for maxContactCreations <= 1 only.")
C("C20", "partial", [K+"C20_reposition_partial", K+"C20_lost_contact_violated", K+"C20_group_violated", K+"C20_unstable_violated", K+"C20_no_group"],
  "Exact description for singleton groups and contactIfFails = false; order/contacts mismatch otherwise.")
C("C18", "partial", [K+"C18_initial", K+"C18_previous_partial", K+"C18_previous_violated"],
  "Initial generation: proved. From a previous state the counter misses the created contact (violated); the partial theorem gives the exact difference.")
C("C21", "proved", [K+"C21_terminates", K+"C21_report"])
C("C22", "partial", [K+"C22_initial_contacts_partial", K+"C22_always_stable", K+"C22_stable_violated"],
  "One contact per group, order and counter proved; the stable flag is always set (violated); for the configuration of the device see C141.")
C("C66", "proved", [K+"C66_extra_dofs"])
C("C67", "proved", [K+"C67_no_contacts_fails"])

I = "Rbprm.Interp."
C("C23", "proved", [I+"C23_discretise", I+"C23_terminates"])
C("C24", "partial", [I+"C24_plan_partial", I+"C24_loop", I+"C24_goal_date_violated"],
  "Start state, provenance and order proved for every honest contact generator; the date of the appended goal may be smaller than the date before it (violated).")
C("C25", "proved", [I+"C25_bounded_calls", I+"C25_terminates", I+"C25_library"])
C("C26", "partial", [I+"C26_success_partial", I+"C26_failed_state_violated"],
  "States of failed (repositioned) reports enter the plan (violated); at most 20 repositioned states are proved.")
C("C27", "partial", [I+"C27_filter_partial", I+"C27_terminates", I+"C27_dropped", I+"C27_moved", I+"C27_replaced", I+"C27_skipped", I+"C27_no_throw", I+"C27_skip_violated"],
  "Everything proved except that deep filtering may read an empty vector (violated).")
C("C28", "partial", [I+"C28_goal_partial", I+"C28_no_throw", I+"C28_option_violated"],
  "Proved whenever the call returns; an exception leaves the postural option disabled (violated).")
C("C68", "partial", [I+"C68_connected_partial", I+"C68_replace_violated"], "Not kept by FilterObsolete and tryReplaceStates (violated).")
C("C69", "partial", [I+"C24_loop", I+"C69_date_violated"], "The date is that of the sample or one step earlier (violated; C24_loop gives the exact alternative).")
C("C70", "proved", [K+"C70_contact_data", K+"C70_initial"])
C("C71", "proved", [K+"C71_honest_report"])
C("C72", "proved", [I+"C72_counter"])
C("C73", "proved", [I+"C73_all_samples", I+"C73_request"])

D = "Rbprm.Sampling."
O = "Rbprm.IO."
C("C29", "proved", [D+"C29_octree_partition", D+"C29_construct"])
C("C30", "partial", [D+"C30_history_partial", D+"addValue_attached", D+"C30_sorted_partial", D+"C30_violated"],
  "Kept by construction and addValue; sortDB permutes the samples and not the values (violated), harmless only when nothing moves.")
C("C31", "proved", [D+"C31_addValue", D+"C31_existing"])
C("C32", "partial", [D+"C32_sort_partial", D+"C32_violated"], "Permutation, renumbering and order inside each voxel proved; samples are grouped by voxel, so the order across voxels is not the static order (violated).")
C("C33", "proved", [D+"C33_candidates", D+"C33_report_contents", D+"C33_collide", D+"C33_constructed"])
C("C34", "partial", [O+"C34_roundtrip_partial", O+"C34_any_octree", O+"C34_limb_partial", O+"C34_order_violated", O+"C34_bounds_violated", O+"C34_skip_values_violated"],
  "Round trip proved when numbers print exactly and the new octree numbers its voxels as the old one; for any other numbering a permutation; bounds are lost, and skipping values can fail (violated).")
C("C35", "proved", [O+"C35_split", O+"C35_trailing_separator", O+"C35_matrix", O+"C35_vector", O+"C35_rotation"])
C("C74", "partial", [D+"C74_generate_partial", D+"C74_violated"], "Sample 0 takes its positions from the current configuration of the device but stores the neutral one (violated unless they agree).")
C("C75", "proved", [D+"C75_load"])

G = "Rbprm.Registry."
V = "Rbprm.Validation."
C("C36", "partial", [G+"C36_history_partial", G+"C36_distinct", G+"C36_toggle", G+"C36_violated"],
  "Proved for histories that never use one id in both registries; the two Add functions only check their own registry, and a toggle then loses a limb (violated).")
C("C37", "proved", [G+"C37_history", G+"C37_never_written", G+"C37_returns"])
C("C76", "proved", [G+"C76_groups"])
C("C77", "proved", [G+"C77_factory", G+"C77_analysis"])
C("C38", "proved", [V+"C38_validate_roms", V+"C38_in_contact", V+"C38_monotone", V+"C38_all_contacts", V+"C38_repeatable"])
C("C39", "partial", [V+"C39_validate_partial", V+"C39_bounds_violated", V+"C39_empty_filter_violated", V+"C39_trunk"],
  "Answer and report proved; a bounds failure is not in the report and an empty filter reports only up to the first ROM in contact (violated).")
C("C40", "proved", [V+"C40_shuffle", V+"C40_shuffle_all", V+"C40_validate", V+"C40_order"])
C("C78", "partial", [V+"C78_create_partial", V+"C78_violated"], "ROMs of the filter without affordance filter are not required (violated).")
C("C79", "partial", [V+"C79_history_partial", V+"C79_no_report_violated"], "validateRoms without report dereferences a null pointer (violated).")

PV = "Rbprm.PathValidation."
SH = "Rbprm.Shoot."
C("C41", "proved", [PV+"C41_terminates", PV+"C41_bound_exists", PV+"C41_validate", PV+"C41_coverage", PV+"C41_dynamic", PV+"C41_both"])
C("C80", "partial", [PV+"C80_report_partial", PV+"C80_violated", PV+"C80_dynamic_violated"],
  "Proved when the path can be evaluated; otherwise a stale report is returned, and the dynamic validation with filter evaluates into an empty vector (violated).")
C("C42", "proved", [SH+"C42_shoot", SH+"C42_set", SH+"C42_translate"])
C("C43", "proved", [SH+"C43_weights", SH+"C43_monotone", SH+"C43_draw", SH+"C43_uniform", SH+"C43_area", SH+"C43_normal", SH+"C43_shot"])
C("C44", "proved", [SH+"C44_point"])
C("C45", "partial", [SH+"C45_shoot_partial", SH+"C45_violated", SH+"C45_no_surface_violated"],
  "Bound and soundness of a found configuration proved; when the limits are exhausted a refused configuration is returned, without surfaces the draw is undefined (violated).")
C("C81", "proved", [SH+"C81_angles", SH+"C81_unit", SH+"C81_euler"])
C("C82", "proved", [SH+"C82_surfaces", SH+"C82_once", SH+"C82_create"])
SU = "Rbprm.Support."
TR = "Rbprm.Triangle."
GE = "Rbprm.Geom."
ST = "Rbprm.Stability."
C("C46", "proved", [SU+"C46_inside_ccw", SU+"C46_inside_cw", SU+"C46_separated", SU+"C46_outside", SU+"C46_hull"])
C("C83", "partial", [SU+"C83_feet", SU+"C83_aligned_hull", SU+"C83_hull_partial", SU+"C83_contains_partial", SU+"C83_violated", SU+"C83_points_violated"],
  "Proved whenever the rectangle of the first contact is not flat (corners may be aligned, shared or one above the other), and when no three corners are on one line of the border; with point contacts on one line the construction may not end or may miss points (violated).")
C("C47", "partial", [TR+"C47_inside", TR+"C47_closest_partial", TR+"C47_violated"],
  "The result is always in the triangle; it is the closest point outside one region of the case split, in which a farther point is returned (violated).")
C("C84", "proved", [TR+"C84_pointInTriangle"])
C("C48", "partial", [ST+"C48_verdict", ST+"C48_negative", ST+"C48_rows", ST+"C48_corners", ST+"C48_no_contact_partial"],
  "The answer of the library for a problem without points is not modelled: the clause on states without contact has it as hypothesis.")
C("C49", "proved", [GE+"C49_project", GE+"C49_signed"])
C("C50", "partial", [GE+"C50_clip2D", GE+"C50_clip3D", GE+"C50_exact_partial", GE+"C50_exact3D_partial", GE+"C50_undefined", GE+"C50_violated"],
  "Proved when the clipping is defined, with exact coverage for convex subject polygons (3D: no three corners on one line of the border); when an intermediate polygon is empty the code reads before the first element (violated).")
C("C85", "proved", [GE+"C85_hull"])
C("C86", "partial", [GE+"C86_hull_partial", GE+"C86_contains_partial", GE+"C86_degenerate", GE+"C86_violated", GE+"C86_aligned_violated"],
  "Proved when no three points are on one line of the border; one point contains everything and two points contain their whole line (violated), and a corner that is the last of three aligned points can be skipped (violated).")
C("C87", "proved", [GE+"C87_area", GE+"C87_centroid", GE+"C87_centroid_inside", GE+"C87_center"])
C("C88", "proved", [GE+"C88_segment", GE+"C88_mesh"])
C("C89", "partial", [GE+"C89_inside", GE+"C89_sound_partial", GE+"C89_complete_partial", GE+"C89_defined", GE+"C89_violated"],
  "Sound whenever defined, exact when all vertices are away from the plane on both sides; undefined when the triangle is on the positive side (violated).")
C("C90", "partial", [GE+"C90_project_partial", GE+"C90_violated"],
  "Everything but membership in the polygon: the edges are prolonged to lines, so the result can be outside near a corner (violated).")
C("C91", "partial", [SU+"C91_segment_partial", SU+"C91_point_partial", SU+"C91_violated", SU+"C91_empty"],
  "Single point: exact. Segment: sound only; DistancePointSegment has a wrong sign and divides by zero for axis-parallel segments, and Contains never takes that branch for two distinct points (violated).")
RE = "Rbprm.Reach."
C("C51", "proved", [RE+"C51_equivariant", RE+"C51_inverse", RE+"C51_state", RE+"C51_defined", RE+"C51_monotone", RE+"C51_limb", RE+"C51_all", RE+"C51_verify"])
C("C52", "proved", [RE+"C52_status", RE+"C52_success", RE+"C52_feasible", RE+"C52_unable", RE+"C52_intermediate"])
C("C53", "partial", [RE+"C53_timings_partial", RE+"C53_table", RE+"C53_violated"], "The last row of the table is never tried (violated); everything else proved.")
C("C92", "proved", [RE+"C92_mesh", RE+"C92_transform"])
C("C93", "partial", [RE+"C93_cone_partial", RE+"C93_polytope", RE+"C93_feet", RE+"C93_violated"], "Proved for cones (right-hand side 0); otherwise the rows are normalised but not the right-hand side (violated).")
C("C94", "partial", [RE+"C94_partial", RE+"C94_violated", RE+"C94_violated_case"], "With an intermediate state the acceleration is ignored (violated).")
C("C95", "partial", [RE+"C95_partial", RE+"C95_violated"], "Proved when a contact is broken and created; with only one of them the reported point is half of the point that was found (violated).")
C("C96", "proved", [RE+"C96_paths", RE+"C96_velocities"])
C("C97", "partial", [RE+"C97_partial", RE+"C97_violated"], "Objects with automatic storage are deleted whenever the solver was called (violated).")
WA = "Rbprm.Watch."
C("C63", "partial", [WA+"C63_history_partial", WA+"C63_order_partial", WA+"C63_unknown", WA+"C63_inactive", WA+"C63_reset", WA+"C63_violated", WA+"C63_start_violated"],
  "Histories without pause (see C98). A lapse of 0 is taken for an unset minimum, and a start that throws creates a record (violated).")
C("C98", "partial", [WA+"C98_partial", WA+"C98_violated", WA+"C98_realtime_violated"],
  "pause adds clock ticks to seconds, reads the wrong clock in real time mode, and stop forgets the part before the pause in the last time (violated); what it leaves unchanged is proved.")
AN = "Rbprm.Analysis."
C("C64", "partial", [AN+"C64_partial", AN+"C64_violated", AN+"C64_scale_violated"],
  "In [0, 1] only when the least singular value is at most 1; otherwise not a number, and not scale invariant (violated).")
C("C99", "proved", [AN+"C99_extremes", AN+"C99_rows"], "The singular values are those of an oracle (Eigen's SVD).")
C("C100", "proved", [AN+"C100_manipulability"])
C("C101", "partial", [AN+"C101_probability", AN+"C101_db", AN+"C101_violated"],
  "Proved for the first robot; the data base is shared by all robots of the process (violated).")
C("C102", "partial", [AN+"C102_partial", AN+"C102_violated"],
  "Proved when the walk stops at the effector's joint; if the effector frame has another name than its joint, joints behind it count (violated).")
C("C103", "partial", [AN+"C103_partial", AN+"C103_weights", AN+"C103_number", AN+"C103_violated"],
  "Proved up to the first degree of freedom of the last joint; its other ones are ignored (violated).")
C("C104", "partial", [AN+"C104_partial", AN+"C104_violated"], "Proved when only one limb starts at the rank; otherwise the first one is taken (violated).")
HE = "Rbprm.Heur."
C("C105", "partial", [HE+"C105_partial", HE+"C105_violated"], "The path of the centre of mass, the position on it and the reference offset are not copied (violated); the other members are.")
C("C106", "proved", [HE+"C106_ground", HE+"C106_empty"])
C("C107", "proved", [HE+"C107_projection", HE+"C107_support", HE+"C107_transform"])
C("C108", "proved", [HE+"C108_hull"])
C("C109", "proved", [HE+"C109_centroid", HE+"C109_small", HE+"C109_equal_loops", HE+"C109_of_hull"])
C("C110", "partial", [HE+"C110_partial", HE+"C110_violated", HE+"C110_limb_violated"],
  "Termination and value proved (for contacts the tolerance of the hull tells apart); along y the guard tests the wrong acceleration, and a limb already in contact is evaluated at its old position (violated).")
C("C111", "partial", [HE+"C111_efort", HE+"C111_manipulability", HE+"C111_directions", HE+"C111_fixedStep", HE+"C111_forward_violated", "Rbprm.Factory.C111_jointlimits", "Rbprm.Factory.C111_jointlimits_violated"],
  "forward adds the square of the height: proved for equal heights, violated otherwise. jointlimits is the norm of the configuration, which is largest at the limits of ranges centred at 0 (violated).")
C("C112", "partial", [HE+"C112_null", HE+"C112_value", HE+"C112_partial", HE+"C112_violated"],
  "Proved for positions in front of the limb; behind it crossed positions are preferred (violated).")
NO="Rbprm.Node."
C("C65", "partial", [NO+"C65_blocks", NO+"C65_dynamics", NO+"C65_rectangle", NO+"C65_violated"],
  "Blocks, dynamics and corners proved; when no contact point can be computed uninitialised values are used (violated).")
C("C113", "partial", [NO+"C113_partial", NO+"C113_flat_partial", NO+"C113_head", NO+"C113_violated"],
  "Proved on horizontal surfaces; on slopes the tangents are not normalised, so that the cone is inside the friction cone and the rectangle too small (violated).")
C("C114", "partial", [NO+"C114_best", NO+"C114_single", NO+"C114_all", NO+"C114_point", NO+"C114_surface", NO+"C114_violated"],
  "A report that cannot be cast stops the loop over the ROMs (violated).")
OP="Rbprm.Optimise."
DY="Rbprm.Dynamic."
C("C54", "partial", [OP+x for x in ("C54_partial","C54_terminates_partial","C54_defined_partial","C54_hang_violated","C54_null_violated","C54_alias_violated","C54_zero_violated")],
  "Proved while no extraction throws; short detours can loop for ever, a null result is dereferenced when no evaluation succeeds, after a failed extraction the aliased result is appended to itself, NumberOfLoops = 0 throws (all violated).")
C("C115", "partial", [OP+"C115_partial", OP+"C115_violated", OP+"C115_null_violated"],
  "The path is returned unchanged, so the ends are kept; the vectors are passed by value, so that no element is ever replaced (violated), and a non-kinodynamic element gives a null pointer (violated).")
C("C55", "partial", [DY+x for x in ("C55_forward_partial","C55_backward_partial","C55_all_times_partial","C55_all_times_backward_partial","C55_margin","C55_violated","C55_short_violated")],
  "Proved when the bounds are recomputed; when the fixed bounds are kept nothing is checked, and switching times closer than epsilon are skipped (violated).")
C("C116", "partial", [DY+"C116_partial", DY+"C116_direction", DY+"C116_violated"],
  "Proved along x and y when the largest acceleration is between the margin and the fixed bound; along z the fixed bound is used, and below the margin the absolute value exceeds it (violated).")
C("C57", "partial", [DY+x for x in ("C57_partial","C57_number","C57_cache_violated","C57_names_violated","C57_position_violated","C57_null_violated")],
  "Proved for histories of accepted calls with a fixed set of ROMs per number, with the matrices of an earlier configuration with the same contacts; a rejected acceleration is accepted when asked again, names are not compared, the matrices are not recomputed when the robot moves, and without initial report a null pointer is used (violated).")
PL="Rbprm.Planner."
C("C56", "partial", [PL+x for x in ("C56_partial","C56_route","C56_connects","C56_direct_partial","C56_jump_target","C56_goal_violated","C56_jump_violated","C56_null_violated")],
  "Proved for every history of oneStep; the direct connections to the goals add an edge without comparing the end of the path with the goal (violated when the steering method stops early, and for jumps), and dereference a null report for a path of length 0 (violated).")
PB="Rbprm.Parabola."
C("C62", "partial", [PB+x for x in ("C62_ends","C62_partial","C62_extract","C62_violated","C62_axis_violated")],
  "Ends, horizontal position, extraction and reversal proved; the interpolation overwrites the height, so the path is a straight line strictly below its parabola, and a path without movement along x stays at its initial configuration (violated).")
C("C117", "proved", [PB+x for x in ("C117_jump","C117_complete","C117_returned")])
C("C118", "partial", [PB+x for x in ("C118_partial","C118_range_violated","C118_height_violated","C118_reverse_violated")],
  "Ends, horizontal position, velocity and acceleration proved; height (violated), time range = horizontal distance instead of the duration (violated), reversed jump has a negative length (violated).")
PT="Rbprm.Paths."
C("C58", "proved", [PT+x for x in ("C58_ends","C58_ends_constrained","C58_degenerate","C58_monotone","C58_extract","C58_extract_checked","C58_extract_defined","C58_joints","C58_constrained_joints_differ","C58_setters","C58_degenerate_extract")],
  "Extraction commutes for the extra degree of freedom (with constraints) and for all joints (without constraints and with a geodesic interpolation); an example shows that constrained joints differ.")
C("C59", "partial", [PT+x for x in ("C59_com","C59_inconsistent","C59_reverse_violated","C59_polynom","C59_zero_violated")],
  "Proved for intervals in order and ranges that do not start below 0; reversed intervals do not give the reversed trajectory, and a polynomial trajectory whose range ends at 0 is constant (violated).")
C("C60", "partial", [PT+x for x in ("C60_partial","C60_monotone","C60_violated")],
  "Exact characterisation of acceptance; the last tenth is never checked (violated).")
C("C61", "proved", [PT+x for x in ("C61_result","C61_schedule","C61_waits","C61_leads","C61_bounds")])
C("C119", "partial", [PT+x for x in ("C119_bezier_partial","C119_outside","C119_clamped","C119_waypoints","C119_offset_violated")],
  "Proved for curves starting at time 0 (the constructor from waypoints builds those); with another start the joints are not those of the initial configuration (violated).")
C("C120", "partial", [I+x for x in ("C120_shoot","C120_instant","C120_defined","C120_free","C120_drawn","C120_last_violated")],
  "Everything but: the last sample of a limb is never drawn (violated).")
C("C121", "partial", [I+x for x in ("C121_contacts","C121_comRRT","C121_defined","C121_start","C121_end_partial","C121_end_violated","C121_effector_partial","C121_garbage_violated","C121_com_violated","C121_locked_violated","C121_joints_violated")],
  "Exact characterisation of the accepted configurations; a contact that moves less than 1 cm makes the final configuration rejected, comRRT ignores its centre-of-mass reference, effectorRRT has an uninitialised target and ignores the constrained joints (violated).")
C("C122", "proved", [I+x for x in ("C122_project","C122_com")])
C("C123", "partial", [I+x for x in ("C123_sizes_partial","C123_velocity_violated","C123_ends","C123_states","C123_time_violated")],
  "Configurations and states proved; derivatives have one coordinate less than declared and the extra degree of freedom jumps between transitions (violated).")
EF="Rbprm.Effector."
C("C124", "proved", [EF+x for x in ("C124_generate","C124_references","C124_path")],
  "Under the contract of the library bezier-com-traj (satisfied by demoLib), for centre-of-mass paths of more than 0.7 s.")
C("C125", "partial", [EF+x for x in ("C125_offset","C125_monotone","C125_slow_violated","C125_fast_violated","C125_delay_violated")],
  "Proved between 0.7 s and 4.3 s; negative offset from 4.9 s on, negative middle duration below 0.7 s, delay not respected (violated).")
C("C126", "partial", [EF+x for x in ("C126_attempts","C126_returns","C126_complete","C126_still","C126_solver_violated","C126_normal_violated","C126_stale_violated")],
  "Order of the attempts, result and storage proved; undefined behaviour if the solver failed for the followed reference, exception for an effector that was not in contact, stale curves if the returned path is not added (violated).")
C("C127", "proved", [EF+x for x in ("C127_position","C127_terminates","C127_ends")])
JO="Rbprm.Joints."
C("C128", "proved", [JO+x for x in ("C128_locked","C128_free","C128_spared","C128_spared_limbs","C128_coordinates","C128_effector","C128_effector_chain")])
C("C129", "partial", [JO+x for x in ("C129_all","C129_disabled","C129_body","C129_leaf_violated","C129_second_violated")],
  "Exact pairs proved; with disabled collisions all leaves of the tree are dropped as well, and the body follows the first limb only (violated).")
C("C130", "partial", [JO+x for x in ("C130_exact","C130_trunk_violated","C130_still","C130_subset","C130_root_violated","C130_frame_violated")],
  "Exact pairs proved when every joint had all its pairs; a root without pair stops the removal, an effector that is not a joint makes the interpolation throw (violated). The trunk is never tested during a motion.")
PJ="Rbprm.Proj."
C("C131", "partial", [PJ+x for x in ("C131_rotation","C131_surface","C131_given","C131_postural_partial","C131_point_partial","C131_triangle","C131_point_violated","C131_postural_violated","C131_example")],
  "Proved for surface contacts without the postural task, and for offsets and normals along z with it; with a free rotation the contact point is off the requested position if the limb has an offset (violated).")
C("C132", "partial", [PJ+x for x in ("C132_rootPosition","C132_rootConfiguration","C132_offset","C132_com","C132_contacts","C132_robustness_violated","C132_defined","C132_example")],
  "Everything but the robustness, which is not copied (violated).")
C("C133", "partial", [PJ+x for x in ("C133_success","C133_contacts","C133_discarded_violated","C133_free_violated")],
  "Soundness proved; the configurations found for the free limbs are thrown away (violated).")
C("C134", "partial", [PJ+x for x in ("C134_success","C134_failure","C134_locked","C134_locked_violated","C134_sample","C134_example")],
  "Everything proved, but locked joints are taken from the device instead of the state (violated).")
TL="Rbprm.Tools."
C("C135", "partial", [TL+x for x in ("C135_z","C135_y","C135_x_exact","C135_x_violated","C135_x_orthogonal_violated","C135_uninitialised_violated")],
  "About y and z: exactly when the uninitialised entries are 0; about x never, the sine is at the wrong place (violated).")
C("C136", "partial", [TL+x for x in ("C136_range","C136_symmetric","C136_sign","C136_zero","C136_triangle","C136_ends","C136_unit_partial","C136_speed_partial","C136_near_partial","C136_unit_violated","C136_example")],
  "Everything but the unit norm and speed for quaternions nearer than 1e-4 rad, where the norm is at least 1 - 2.5e-9 but not 1 (violated).")
DV="Rbprm.Dev."
C("C137", "partial", [DV+x for x in ("C137_config","C137_answer","C137_answer_violated","C137_extra","C137_extra_values","C137_reference","C137_unset_violated")],
  "Everything but: the answer ignores the ROMs, and an unset reference is uninitialised memory (violated).")
C("C138", "partial", [DV+x for x in ("C138_create","C138_added","C138_added_nonContacting","C138_toggle_answer","C138_axes_partial","C138_axes_next","C138_axes_violated","C138_moves_violated","C138_reference","C138_set","C138_last_partial","C138_history","C138_order_violated","C138_toggle_violated")],
  "Axes proved when the transforms are those of the neutral configuration (they are after another limb was added), references for contacting limbs that were there when the reference configuration was set; stale transforms, later or toggled limbs and the moved device are violations.")
C("C139", "partial", [DV+x for x in ("C139_position","C139_predicted_partial","C139_predicted_violated","C139_contact_violated","C139_orientation_violated","C139_limb_frame","C139_length","C139_example")],
  "Proved for limbs without offset; exact conditions otherwise: the offset is added along the axes of the world (violated).")
C("C140", "partial", [DV+x for x in ("C140_partial","C140_normal_partial","C140_violated","C140_normal_violated","C140_example")],
  "Proved for obstacles at the identity placement; others are used as if they were there (violated).")
RS="Rbprm.Restore."
C("C141", "partial", [RS+x for x in ("C141_copy_partial","C141_analysis","C141_flag","C141_during","C141_reference_violated","C141_reference_iff","C141_transforms_violated","C141_throw_violated")],
  "Proved for the analysis functions; for the others the configuration is given back if it is saved by value (it is declared as a reference, which gives back nothing), but the transforms are not, and nothing is after an exception.")
C("C142", "partial", [RS+x for x in ("C142_cone_partial","C142_friction_violated","C142_failure_violated","C142_defined")],
  "The cone is that of the library for the robot's friction coefficient; the argument is ignored and a failure gives a cone that accepts everything (violated). The library is a parameter.")
FA="Rbprm.Factory."
C("C143", "proved", [FA+"C143_heuristics", FA+"C143_analyses", FA+"C143_kept"])
C("C144", "partial", [RE+"C144_partial", RE+"C144_violated", RE+"C144_root_violated"],
  "Proved but for the break of one limb with the creation of another one, which is not 'too many' (violated); a root that stays in its place is a success whatever the contacts (violated).")
C("C145", "partial", [RE+"C145_target_partial", RE+"C145_nearest_partial", RE+"C145_violated"],
  "Proved when the states have a contact in common; for the repositioning of the only contact the mean of no points is computed (violated).")
C("C146", "proved", [I+"C146_gives_up", I+"C146_watch", I+"C146_second_failure"])
SE="Rbprm.Setup."
C("C147", "partial", [SE+x for x in ("C147_feet_partial","C147_jump_partial","C147_friction_violated")],
  "Proved on horizontal surfaces (on slopes the rectangle shrinks, see C113); the friction of the jumps is always 0.5 (violated).")
C("C148", "partial", [SE+"C148_steps_partial", SE+"C148_violated"],
  "The steps keep the content of the roadmap, but the given roadmap is replaced by an empty one at creation (violated).")
C("C149", "partial", [SE+x for x in ("C149_node","C149_steer_partial","C149_history","C149_create","C149_steer_violated","C149_flag_violated")],
  "Proved for the planner; the optimisers use the surface that happens to be first, which depends on what was validated before, and the option computeAllContacts of the user is lost (violated).")
C("C150", "partial", [V+x for x in ("C150_history_partial","C150_add","C150_exception_violated")],
  "Proved when hpp-core ignores the removal of an obstacle that is not registered; when it raises an exception, no surface can ever be removed from a ROM (violated).")
RR = "Rbprm.RRT."
C("C151", "partial", [RR+x for x in ("C151_limbRRT","C151_limbRRTFromPath","C151_comRRTFromPath","C151_comRRT_partial","C151_tolerance_violated","C151_draws","C151_steer_draws")],
  "Proved for limbRRT and the variants from a path; comRRT only keeps the contacts within 5 cm (violated).  Planner, optimisers and projector of hpp-core by contract.")
C("C152", "partial", [RR+x for x in ("C152_returns","C152_guide","C152_drift_violated","C152_com_drift_violated","C152_exception_violated","C152_com_violated")],
  "Return and guide proved; a contact displaced by 1 mm to 1 cm counts as kept but makes limbRRT and comRRT run for ever; without moving limb a failure of the guide planner escapes and the guide ignores the contacts; the path of the centre of mass is not used (violated).")
SF = "Rbprm.Surface."
C("C153", "partial", [SF+x for x in ("C153_plane","C153_normal","C153_surface_partial","C153_degenerate_violated","C153_mesh_violated")],
  "Proved for planar surfaces whose first triangle has an area, no three corners on one line of the border seen from above; only the first triangle defines the plane: with a degenerate one the normal is null and every ROM is in contact, and other triangles of the mesh are ignored (violated).")
C("C154", "partial", [SF+x for x in ("C154_sound","C154_defined","C154_inside_partial","C154_violated")],
  "Soundness and definedness proved; a contained polygon is kept from four corners on, triangles are lost (violated).")
C("C155", "partial", [SF+x for x in ("C155_partial","C155_clockwise","C155_violated","C155_projectZ")],
  "The code reads n[3], outside of the normal, and takes the absolute value of the area: right for counter-clockwise polygons if that memory holds the third coordinate, wrong sign for clockwise ones (violated).")
DP = "Rbprm.DynPath."
C("C156", "partial", [DP+x for x in ("C156_registry","C156_path_partial","C156_defined","C156_filtered","C156_order_violated","C156_filter_violated")],
  "Proved with the matrices of an earlier tested configuration with the same contacts; a dynamic validation registered first refuses every path, a validation added after that of the ROMs makes a null pointer, and with a filter the other validations are ignored (violated).")
C("C157", "partial", ["Rbprm.Shoot."+x for x in ("C157_normal","C157_push_partial","C157_loop","C157_violated")],
  "Proved where the bounds of the root let it move and for triangles seen from outside; reversed or degenerate triangles push inwards or not at all (violated).")
C("C158", "partial", ["Rbprm.Posture."+x for x in ("C158_weights","C158_cost_partial","C158_violated","C158_small_violated")],
  "Weights and cost proved; the mask for the root and the extra degrees of freedom is computed but not used (violated), and out of range for small robots (violated).  Cost function of hpp-constraints by contract.")
C("C159", "partial", ["Rbprm.Watch."+x for x in ("C159_report","C159_reportAll","C159_history","C159_figures_partial","C159_violated")],
  "Proved for all histories; the figures without pauses and for positive lapses; a lapse of zero makes the minimum greater than the average (violated).")
OC = "Rbprm.Octree."
C("C160", "proved", [OC+x for x in ("C160_boxes","C160_position")], "octomap by contract (grid cells, no pruning).")
C("C161", "partial", [OC+x for x in ("C161_found","C161_partial","C161_lost","C161_violated")],
  "Proved when the conversion to float keeps the cell of the positions; otherwise the sample is lost: inserted as float in one cell, looked up as double in another (violated).")
CP="Rbprm.Copies."
C("C162", "partial", [CP+x for x in ("C162_com","C162_com_extract","C162_poly","C162_length","C162_timeConstraint","C162_timeConstraint_with","C162_timeConstraint_made","C162_bezier","C162_jump","C162_timed_extract","C162_changed_violation","C162_jump_constraints_violation")],
  "Copies are faithful for every path. Violated: after a change of an end, copying a path under constraints throws; the copy of a jump with constraints ignores them; asking a trajectory of the centre of mass or along a curve for one ends the program.")
C("C163", "partial", [CP+x for x in ("C163_partial","C163_ends","C163_shape","C163_uninitialised_violation")],
  "Proved for the constructors given the velocities. The constructor from coefficients reads uninitialised memory: any duration is possible (violated); only the places, at fractions of the duration, do not depend on it.")
RN="Rbprm.RomNames."
C("C164", "partial", [RN+x for x in ("C164_fill_partial","C164_partial","C164_reverse","C164_back","C164_hidden_violation")],
  "Proved for configurations that the other validations of the problem accept; one that refuses hides the contacts (violated).  core::ConfigValidations by contract.")
C("C165", "proved", [I+x for x in ("C165_plan","C165_returns","C165_projections")],
  "The whole of Interpolate with the contact generation and the projections of this library.  With deep filtering, or a goal that releases a contact, an exception is possible (C27_skip_violated, C28_option_violated).")
C("C166", "partial", [I+x for x in ("C166_step","C166_plan_partial","C166_repositioning","C166_breakCreate","C166_reposition_violated","C166_filter_violated")],
  "Proved for one step of contact generation and for the states before filtering, hence for the plan whenever consecutive states differ in configuration and contacts.  Violated by a library run in which contact generation fails (both contacts released) and by one in which FilterObsolete drops a state whose contacts changed at the same configuration.  Of deep filtering, the two passes that merge steps are covered (C166_repositioning, C166_breakCreate), not the two that rebuild states nor their repetition.")
RD = "Rbprm.Random."
C("C167", "proved", [RD+x for x in ("C167_created","C167_seeded","C167_sequence","C167_seed_violated","C167_repeat_violated")],
  "The generator is abstract and calls are arbitrary programs over rand().  The two last theorems show what a user may not expect: a seed chosen before a creation is lost, and two creations in the same second repeat the draws.")
C("C168", "partial", [I+x for x in ("C168_step","C168_plan_partial","C168_reposition_violated","C168_goal_violated","C168_deep_violated","C168_reachable_violated","C168_dynamic_violated")],
  "One step is proved without exception, with what the reachability test really compares; a plan is proved up to the states repositioned after a failure, the moves to the goal and the states rebuilt by deep filtering, whose equilibrium the code does not test (violation theorems).  Reachability from the previous state itself is violated: the quasi-static test starts from that state moved to the new configuration, the dynamic one does not test releases.")
C("C169", "proved", [PL+x for x in ("C169_roadmap","C169_resolution")],
  "the model of the planner is run with the models of the steering method (C55) and of the loop of the path validation (C41); that hpp-core's steering method joins the two configurations, and that extracting an interval of its paths keeps their configurations, is assumed; between two tested configurations nothing is guaranteed (C169_resolution); direct connections to the goals are excluded (C56_goal_violated)")
C("C170", "partial", [I+x for x in ("C170_step_partial","C170_initial","C170_plan_partial","C170_violated")],
  "with the postural task of contact creation and the test of reachability the state repositioned after a failure may have a contact at an uninitialised place (C170_violated), so this case is excluded, as are the states rebuilt by deep filtering")
C("C171", "partial", [I+x for x in ("C171_contact_partial","C171_initial_partial","C171_plan_partial","C171_example")],
  "for surface contacts (rotation constrained), and, with the postural task, for limbs with offset and normal along z, since otherwise the code violates it (C131_point_violated, C131_postural_violated); the cases excluded by C170 are excluded; the collision of a triangle with a voxel is fcl's answer")
C("C172", "partial", [I+x for x in ("C172_step","C172_plan_partial")],
  "One step is proved without exception; a plan up to the states that C168 excludes (repositioned after a failure, moved to the goal, rebuilt by deep filtering), whose equilibrium the code does not test: C168_reposition_violated, C168_goal_violated, C168_deep_violated")
C("C173", "proved", [JO+x for x in ("C173_device","C173_all","C173_load","C173_example")],
  "that the projector of hpp-core keeps the locks, and does not change the current configuration of the device, is assumed; the configurations where the tests leave the device are read off the code (stability.cc, reachability.cc, kinematics_constraints.cc)")
C("C174", "partial", [I+x for x in ("C174_step","C174_plan_partial")],
  "One step is proved without exception; in a plan the states repositioned after a failure are excluded, since nothing is checked of them (C168_reposition_violated), as are the start and the goal, given by the user")
C("C175", "partial", [I+x for x in ("C175_step","C175_plan_partial","C175_violated")],
  "The release is tested from the configuration that the planner gave, with the feet not at the contacts, instead of the state before: C175_violated. In a plan the states that are not tested are excluded (C168_reposition_violated, C168_goal_violated)")
C("C176", "partial", [I+x for x in ("C176_step_partial","C176_plan_partial","C176_violated","C176_root_violated")],
  "Steps that only release a contact are not tested in dynamic mode (C176_violated), and a state with the same position of the robot always counts as reachable, without a trajectory (C176_root_violated)")
C("C177", "partial", [I+x for x in ("C177_step_partial","C177_plan_partial","C177_free_step_partial","C177_free_plan_partial","C177_balanced","C177_equilibrium_violated","C177_reachability_violated")],
  "Reachability is ignored after a repositioning (C177_reachability_violated), and a single contact is not tested for equilibrium although the report is a success (C177_equilibrium_violated). With the postural task and the test of reachability together nothing is known of the contact (C17_postural_violated, C170_violated): excluded by hypothesis")
C("C178", "partial", [I+x for x in ("C178_kept","C178_repositioned_partial","C178_violated")],
  "The sets of contacts with one contact less are tried from the configuration that the failed attempts before have left, not from the one given: C178_violated")
C("C179", "partial", [I+x for x in ("C179_placed","C179_free","C179_balanced_partial","C179_violated","C179_group_violated")],
  "Equilibrium is only tested when the last limb is placed: C179_violated, C179_group_violated (see also C22_stable_violated)")
C("C180", "partial", [I+x for x in ("C180_filter","C180_normals","C180_plan_partial","C180_projections")],
  "Filtering is covered completely; plans without postural task or without test of reachability (see C170_violated)")
C("C181", "partial", [I+x for x in ("C181_shift","C181_place_partial","C181_aligned","C181_violated")],
  "The offset of the limb is not turned with the effector, so the place is only kept if the rotation leaves the offset unchanged: C181_violated is a foot on a wall. Exact solver, no postural task")
OW = "Rbprm.Own."
C("C182", "partial", [OW+x for x in ("C182_octree","C182_boxes_partial","C182_leak_partial","C182_copy_violated","C182_assign_violated")],
  "octrees: proved for all programs; boxes: proved for programs without copies and assignments; with them the destructor deletes the same boxes twice (the declarations that would forbid copies are commented out), proved as violations")
C("C183", "partial", [PT+x for x in ("C183_answer","C183_forward_partial","C183_backward_partial","C183_rejected","C183_violated")],
  "Proved forwards, and backwards for the paths that the additional tests do not reject; backwards the part of a path rejected by these tests is its start (C183_violated).")
C("C184", "proved", [K+x for x in ("C184_maintained","C184_created","C184_rounds","C184_round","C184_compute")])
MO="Rbprm.Motion."
C("C185", "partial", [MO+x for x in ("C185_upward_partial","C185_violated","C185_heuristics_violated")],
  "The direction is (0, 0, 1) whatever the motion, as the flag nonZero is never set: proved for motions straight up only.")
C("C186", "partial", [MO+x for x in ("C186_dynamics_partial","C186_static","C186_root","C186_outside_violated","C186_speed_violated")],
  "Proved with exactly six extra degrees of freedom; without them the speed is made of joint values, with four or five the acceleration is read outside of the configuration.")
C("C187", "partial", [I+x for x in ("C187_calls_partial","C187_skip","C187_target","C187_violated","C187_path_violated","C187_target_violated")],
  "The time is the one of the configuration or of the sample before; it is the latter for all calls if contact generation always succeeds.")
C("C188", "proved", [K+x for x in ("C188_independent","C188_best","C188_complete","C188_candidates","C188_example")],
  "Under the contract that placing a limb changes only the coordinates of that limb (C173).")
C("C189", "proved", [I+x for x in ("C189_exhausted","C189_idempotent","C189_shallow_not_idempotent","C189_example")],
  "The shallow mode, of which nothing of this is claimed, is not idempotent (C189_shallow_not_idempotent). That the filter may throw is C27.")
C("C190", "proved", [PV+x for x in ("C190_exact","C190_accepted","C190_refused","C190_again","C190_example")],
  "Only the configurations at the steps are tested: nothing is claimed of those in between.")
JC="Rbprm.JumpCone."
C("C191", "partial", [SH+x for x in ("C191_partial","C191_path","C191_example","C191_violated")],
  "Violated when the limits of tries and displacements are exhausted: the last configuration tried is returned, where the robot may not stand (C191_violated).")
C("C192", "partial", [JC+x for x in ("C192_partial","C192_when","C192_refused","C192_example","C192_violated","C192_frame_violated")],
  "Violated by a plane tangent to the cone, for which an aperture of a right angle is returned, and by the threshold on the section, which depends on the frame. Not covered: normals in the tolerance of 1e-6 around the degenerate positions but not on them.")
C("C193", "partial", [PB+x for x in ("C193_draw","C193_partial","C193_angle_violated","C193_velocity_violated","C193_height_violated","C193_end_violated")],
  "Violated: nothing sets the interval of the angle, the velocities in the path are uninitialised, the height is checked up to the target only, and the end is on another line than the path.")
C("C194", "partial", [PT+x for x in ("C194_when","C194_free","C194_partial","C194_symmetry","C194_symmetry_violated","C194_degenerate_violated")],
  "Violated: within the tolerance of the projector two configurations may be linked in one direction only, and configurations at distance 0 are linked by a path that does not reach the second.")
C("C195", "partial", [JC+"section_half"]+[PB+x for x in ("C195_takeoff_partial","C195_landing_partial","C195_floor","C195_violated","C195_third_violated","C195_example")],
  "Violated: the test of the cones is disabled; on flat ground each jump found at the first angle is outside both cones for the friction of the steering method (1/2). Proved: the criterion with the half aperture of fiveth_constraint, for take-off and landing.")
C("C196", "proved", [RR+x for x in ("C196_edge","C196_limbRRT","C196_limbRRTFromPath","C196_comRRTFromPath","C196_comRRT")],
  "Replaces the contract of the planner in C151 by what the paths of the library guarantee. Contacts are prescribed values; constraints on the centre of mass and on effectors are tested at the time of the configuration. The projector is a function whose success means that the constraints hold.")
C("C197", "partial", [EF+x for x in ("C197_partial","effectorTask_some","C197_size_violated","C197_shift_violated")],
  "Violated: when the effector moves by less than 3 cm (or no reference can be followed) the motion of comRRT is returned, with its tolerance of 5 cm and always with the extra degree of freedom; the constraint of the effector has an uninitialised default argument. Planners by the contract of C151, library of curves by that of C124.")
C("C198", "proved", [RR+x for x in ("C198_comRRT","forward_clock")]+[EF+"C198_effectorRRT"],
  "For planners and optimisers that put together paths of TimeConstraintSteering whose time does not decrease (the first test of TimeConstraintPathValidation, C60) and forward parts of them; the distance is zero only between equal configurations. The clock is tied to the configurations wherever the path can be evaluated.")
C("C199", "proved", [RR+x for x in ("C199_edge","C199_comRRT")]+[EF+"C199_effectorRRT"],
  "Derives the hypothesis of C198 from the model of TimeConstraintPathValidation with the valid part (C183), in both directions of validation; the discretised validation of hpp-core by its contract, the distance is zero only between equal configurations. Planners that also keep reversed paths are excluded by the hypothesis.")
PF = "Rbprm.Profile."
C("C200", "partial", [PF+x for x in ("C200_lines_partial","C200_measures","C200_attempts","C200_successes","C200_reset_violated")],
  "Violated by reset_all, with which Interpolate begins: it resets the measures, not the counters (C200_reset_violated), so the report of a planning has the contacts of all plannings before. Counters are integers without overflow; the code that counts is compiled with PROFILE.")
