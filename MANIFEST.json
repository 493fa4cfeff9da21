{
 "claims": [
  {
   "property": "C01",
   "status": "proved",
   "theorems": [
    "Rbprm.State.C01_removeContact"
   ],
   "note": ""
  },
  {
   "property": "C02",
   "status": "proved",
   "theorems": [
    "Rbprm.State.C02_history_consistent",
    "Rbprm.State.C02_duplicate_creation_breaks"
   ],
   "note": ""
  },
  {
   "property": "C03",
   "status": "proved",
   "theorems": [
    "Rbprm.State.C03_removeFirst",
    "Rbprm.State.C03_fifo"
   ],
   "note": ""
  },
  {
   "property": "C04",
   "status": "proved",
   "theorems": [
    "Rbprm.State.C04_variations",
    "Rbprm.State.C04_symmetric",
    "Rbprm.State.C04_self"
   ],
   "note": ""
  },
  {
   "property": "C05",
   "status": "proved",
   "theorems": [
    "Rbprm.State.C05_creations",
    "Rbprm.State.C05_breaks",
    "Rbprm.State.C05_classification"
   ],
   "note": ""
  },
  {
   "property": "C06",
   "status": "proved",
   "theorems": [
    "Rbprm.State.C06_fixed",
    "Rbprm.State.C06_partition",
    "Rbprm.State.C06_allVariations"
   ],
   "note": ""
  },
  {
   "property": "C07",
   "status": "partial",
   "theorems": [
    "Rbprm.State.C07_freeVariations_partial",
    "Rbprm.State.C07_exact",
    "Rbprm.State.C07_violated"
   ],
   "note": "The code throws std::out_of_range whenever an effector is free in both states (C07_violated); the partial theorem characterises exactly when it throws and what it returns otherwise."
  },
  {
   "property": "C08",
   "status": "partial",
   "theorems": [
    "Rbprm.State.C08_copy_partial",
    "Rbprm.State.C08_assign_violated"
   ],
   "note": "operator= does not copy robustness (C08_assign_violated); everything else is copied."
  },
  {
   "property": "C09",
   "status": "proved",
   "theorems": [
    "Rbprm.State.C09_print_consistent",
    "Rbprm.State.C09_print_overrun",
    "Rbprm.State.C09_print_prefix"
   ],
   "note": ""
  },
  {
   "property": "C10",
   "status": "proved",
   "theorems": [
    "Rbprm.State.C10_effectorDistance",
    "Rbprm.State.C10_symmetric"
   ],
   "note": "squared distances"
  },
  {
   "property": "C11",
   "status": "proved",
   "theorems": [
    "Rbprm.Contact.C11_maintain_combinatorial",
    "Rbprm.Contact.C11_single_contact"
   ],
   "note": ""
  },
  {
   "property": "C12",
   "status": "proved",
   "theorems": [
    "Rbprm.Contact.C12_enumeration",
    "Rbprm.Contact.C12_position"
   ],
   "note": ""
  },
  {
   "property": "C13",
   "status": "proved",
   "theorems": [
    "Rbprm.Contact.C13_sortLimbs"
   ],
   "note": ""
  },
  {
   "property": "C14",
   "status": "partial",
   "theorems": [
    "Rbprm.Contact.C14_affordances_partial",
    "Rbprm.Contact.C14_substring_violated",
    "Rbprm.Contact.C14_missing_type_violated"
   ],
   "note": "Filters are looked up by substring and unknown affordance types dereference end(); the partial theorem covers unambiguous filters over known types."
  },
  {
   "property": "C15",
   "status": "partial",
   "theorems": [
    "Rbprm.Contact.C15_setCollisionFree",
    "Rbprm.Contact.C15_maintain_contacts",
    "Rbprm.Contact.C15_stability_collision_violated"
   ],
   "note": "Proved without the maintain-stability option; with it the state taken by the recursion is not collision checked again (violated)."
  },
  {
   "property": "C16",
   "status": "partial",
   "theorems": [
    "Rbprm.Contact.C16_stability_rec",
    "Rbprm.Contact.C16_maintain_stable_partial",
    "Rbprm.Contact.C16_failed_projection_violated"
   ],
   "note": "A stable flag can come from a failed projection (then the report's success is false); proved for successful reports."
  },
  {
   "property": "C17",
   "status": "partial",
   "theorems": [
    "Rbprm.Contact.C17_reachable",
    "Rbprm.Contact.C17_generate_contact_partial",
    "Rbprm.Contact.C17_postural_restored",
    "Rbprm.Contact.C17_postural_violated"
   ],
   "note": "Full characterisation when the postural-task pass leaves no stale flag; otherwise the result holds uninitialised data (violated)."
  },
  {
   "property": "C19",
   "status": "partial",
   "theorems": [
    "Rbprm.Contact.C19_gen_contacts_partial",
    "Rbprm.Contact.C19_two_creations_violated"
   ],
   "note": "Option restored and only free limbs extended always; the creation bound holds for maxContactCreations <= 1 only."
  },
  {
   "property": "C20",
   "status": "partial",
   "theorems": [
    "Rbprm.Contact.C20_reposition_partial",
    "Rbprm.Contact.C20_lost_contact_violated",
    "Rbprm.Contact.C20_group_violated",
    "Rbprm.Contact.C20_unstable_violated",
    "Rbprm.Contact.C20_no_group"
   ],
   "note": "Exact description for singleton groups and contactIfFails = false; order/contacts mismatch otherwise."
  },
  {
   "property": "C18",
   "status": "partial",
   "theorems": [
    "Rbprm.Contact.C18_initial",
    "Rbprm.Contact.C18_previous_partial",
    "Rbprm.Contact.C18_previous_violated"
   ],
   "note": "Initial generation: proved. From a previous state the counter misses the created contact (violated); the partial theorem gives the exact difference."
  },
  {
   "property": "C21",
   "status": "proved",
   "theorems": [
    "Rbprm.Contact.C21_terminates",
    "Rbprm.Contact.C21_report"
   ],
   "note": ""
  },
  {
   "property": "C22",
   "status": "partial",
   "theorems": [
    "Rbprm.Contact.C22_initial_contacts_partial",
    "Rbprm.Contact.C22_always_stable",
    "Rbprm.Contact.C22_stable_violated"
   ],
   "note": "One contact per group, order and counter proved; the stable flag is always set (violated); for the configuration of the device see C141."
  },
  {
   "property": "C66",
   "status": "proved",
   "theorems": [
    "Rbprm.Contact.C66_extra_dofs"
   ],
   "note": ""
  },
  {
   "property": "C67",
   "status": "proved",
   "theorems": [
    "Rbprm.Contact.C67_no_contacts_fails"
   ],
   "note": ""
  },
  {
   "property": "C23",
   "status": "proved",
   "theorems": [
    "Rbprm.Interp.C23_discretise",
    "Rbprm.Interp.C23_terminates"
   ],
   "note": ""
  },
  {
   "property": "C24",
   "status": "partial",
   "theorems": [
    "Rbprm.Interp.C24_plan_partial",
    "Rbprm.Interp.C24_loop",
    "Rbprm.Interp.C24_goal_date_violated"
   ],
   "note": "Start state, provenance and order proved for every honest contact generator; the date of the appended goal may be smaller than the date before it (violated)."
  },
  {
   "property": "C25",
   "status": "proved",
   "theorems": [
    "Rbprm.Interp.C25_bounded_calls",
    "Rbprm.Interp.C25_terminates",
    "Rbprm.Interp.C25_library"
   ],
   "note": ""
  },
  {
   "property": "C26",
   "status": "partial",
   "theorems": [
    "Rbprm.Interp.C26_success_partial",
    "Rbprm.Interp.C26_failed_state_violated"
   ],
   "note": "States of failed (repositioned) reports enter the plan (violated); at most 20 repositioned states are proved."
  },
  {
   "property": "C27",
   "status": "partial",
   "theorems": [
    "Rbprm.Interp.C27_filter_partial",
    "Rbprm.Interp.C27_terminates",
    "Rbprm.Interp.C27_dropped",
    "Rbprm.Interp.C27_moved",
    "Rbprm.Interp.C27_replaced",
    "Rbprm.Interp.C27_skipped",
    "Rbprm.Interp.C27_no_throw",
    "Rbprm.Interp.C27_skip_violated"
   ],
   "note": "Everything proved except that deep filtering may read an empty vector (violated)."
  },
  {
   "property": "C28",
   "status": "partial",
   "theorems": [
    "Rbprm.Interp.C28_goal_partial",
    "Rbprm.Interp.C28_no_throw",
    "Rbprm.Interp.C28_option_violated"
   ],
   "note": "Proved whenever the call returns; an exception leaves the postural option disabled (violated)."
  },
  {
   "property": "C68",
   "status": "partial",
   "theorems": [
    "Rbprm.Interp.C68_connected_partial",
    "Rbprm.Interp.C68_replace_violated"
   ],
   "note": "Not kept by FilterObsolete and tryReplaceStates (violated)."
  },
  {
   "property": "C69",
   "status": "partial",
   "theorems": [
    "Rbprm.Interp.C24_loop",
    "Rbprm.Interp.C69_date_violated"
   ],
   "note": "The date is that of the sample or one step earlier (violated; C24_loop gives the exact alternative)."
  },
  {
   "property": "C70",
   "status": "proved",
   "theorems": [
    "Rbprm.Contact.C70_contact_data",
    "Rbprm.Contact.C70_initial"
   ],
   "note": ""
  },
  {
   "property": "C71",
   "status": "proved",
   "theorems": [
    "Rbprm.Contact.C71_honest_report"
   ],
   "note": ""
  },
  {
   "property": "C72",
   "status": "proved",
   "theorems": [
    "Rbprm.Interp.C72_counter"
   ],
   "note": ""
  },
  {
   "property": "C73",
   "status": "proved",
   "theorems": [
    "Rbprm.Interp.C73_all_samples",
    "Rbprm.Interp.C73_request"
   ],
   "note": ""
  },
  {
   "property": "C29",
   "status": "proved",
   "theorems": [
    "Rbprm.Sampling.C29_octree_partition",
    "Rbprm.Sampling.C29_construct"
   ],
   "note": ""
  },
  {
   "property": "C30",
   "status": "partial",
   "theorems": [
    "Rbprm.Sampling.C30_history_partial",
    "Rbprm.Sampling.addValue_attached",
    "Rbprm.Sampling.C30_sorted_partial",
    "Rbprm.Sampling.C30_violated"
   ],
   "note": "Kept by construction and addValue; sortDB permutes the samples and not the values (violated), harmless only when nothing moves."
  },
  {
   "property": "C31",
   "status": "proved",
   "theorems": [
    "Rbprm.Sampling.C31_addValue",
    "Rbprm.Sampling.C31_existing"
   ],
   "note": ""
  },
  {
   "property": "C32",
   "status": "partial",
   "theorems": [
    "Rbprm.Sampling.C32_sort_partial",
    "Rbprm.Sampling.C32_violated"
   ],
   "note": "Permutation, renumbering and order inside each voxel proved; samples are grouped by voxel, so the order across voxels is not the static order (violated)."
  },
  {
   "property": "C33",
   "status": "proved",
   "theorems": [
    "Rbprm.Sampling.C33_candidates",
    "Rbprm.Sampling.C33_report_contents",
    "Rbprm.Sampling.C33_collide",
    "Rbprm.Sampling.C33_constructed"
   ],
   "note": ""
  },
  {
   "property": "C34",
   "status": "partial",
   "theorems": [
    "Rbprm.IO.C34_roundtrip_partial",
    "Rbprm.IO.C34_any_octree",
    "Rbprm.IO.C34_limb_partial",
    "Rbprm.IO.C34_order_violated",
    "Rbprm.IO.C34_bounds_violated",
    "Rbprm.IO.C34_skip_values_violated"
   ],
   "note": "Round trip proved when numbers print exactly and the new octree numbers its voxels as the old one; for any other numbering a permutation; bounds are lost, and skipping values can fail (violated)."
  },
  {
   "property": "C35",
   "status": "proved",
   "theorems": [
    "Rbprm.IO.C35_split",
    "Rbprm.IO.C35_trailing_separator",
    "Rbprm.IO.C35_matrix",
    "Rbprm.IO.C35_vector",
    "Rbprm.IO.C35_rotation"
   ],
   "note": ""
  },
  {
   "property": "C74",
   "status": "partial",
   "theorems": [
    "Rbprm.Sampling.C74_generate_partial",
    "Rbprm.Sampling.C74_violated"
   ],
   "note": "Sample 0 takes its positions from the current configuration of the device but stores the neutral one (violated unless they agree)."
  },
  {
   "property": "C75",
   "status": "proved",
   "theorems": [
    "Rbprm.Sampling.C75_load"
   ],
   "note": ""
  },
  {
   "property": "C36",
   "status": "partial",
   "theorems": [
    "Rbprm.Registry.C36_history_partial",
    "Rbprm.Registry.C36_distinct",
    "Rbprm.Registry.C36_toggle",
    "Rbprm.Registry.C36_violated"
   ],
   "note": "Proved for histories that never use one id in both registries; the two Add functions only check their own registry, and a toggle then loses a limb (violated)."
  },
  {
   "property": "C37",
   "status": "proved",
   "theorems": [
    "Rbprm.Registry.C37_history",
    "Rbprm.Registry.C37_never_written",
    "Rbprm.Registry.C37_returns"
   ],
   "note": ""
  },
  {
   "property": "C76",
   "status": "proved",
   "theorems": [
    "Rbprm.Registry.C76_groups"
   ],
   "note": ""
  },
  {
   "property": "C77",
   "status": "proved",
   "theorems": [
    "Rbprm.Registry.C77_factory",
    "Rbprm.Registry.C77_analysis"
   ],
   "note": ""
  },
  {
   "property": "C38",
   "status": "proved",
   "theorems": [
    "Rbprm.Validation.C38_validate_roms",
    "Rbprm.Validation.C38_in_contact",
    "Rbprm.Validation.C38_monotone",
    "Rbprm.Validation.C38_all_contacts",
    "Rbprm.Validation.C38_repeatable"
   ],
   "note": ""
  },
  {
   "property": "C39",
   "status": "partial",
   "theorems": [
    "Rbprm.Validation.C39_validate_partial",
    "Rbprm.Validation.C39_bounds_violated",
    "Rbprm.Validation.C39_empty_filter_violated",
    "Rbprm.Validation.C39_trunk"
   ],
   "note": "Answer and report proved; a bounds failure is not in the report and an empty filter reports only up to the first ROM in contact (violated)."
  },
  {
   "property": "C40",
   "status": "proved",
   "theorems": [
    "Rbprm.Validation.C40_shuffle",
    "Rbprm.Validation.C40_shuffle_all",
    "Rbprm.Validation.C40_validate",
    "Rbprm.Validation.C40_order"
   ],
   "note": ""
  },
  {
   "property": "C78",
   "status": "partial",
   "theorems": [
    "Rbprm.Validation.C78_create_partial",
    "Rbprm.Validation.C78_violated"
   ],
   "note": "ROMs of the filter without affordance filter are not required (violated)."
  },
  {
   "property": "C79",
   "status": "partial",
   "theorems": [
    "Rbprm.Validation.C79_history_partial",
    "Rbprm.Validation.C79_no_report_violated"
   ],
   "note": "validateRoms without report dereferences a null pointer (violated)."
  },
  {
   "property": "C41",
   "status": "proved",
   "theorems": [
    "Rbprm.PathValidation.C41_terminates",
    "Rbprm.PathValidation.C41_bound_exists",
    "Rbprm.PathValidation.C41_validate",
    "Rbprm.PathValidation.C41_coverage",
    "Rbprm.PathValidation.C41_dynamic",
    "Rbprm.PathValidation.C41_both"
   ],
   "note": ""
  },
  {
   "property": "C80",
   "status": "partial",
   "theorems": [
    "Rbprm.PathValidation.C80_report_partial",
    "Rbprm.PathValidation.C80_violated",
    "Rbprm.PathValidation.C80_dynamic_violated"
   ],
   "note": "Proved when the path can be evaluated; otherwise a stale report is returned, and the dynamic validation with filter evaluates into an empty vector (violated)."
  },
  {
   "property": "C42",
   "status": "proved",
   "theorems": [
    "Rbprm.Shoot.C42_shoot",
    "Rbprm.Shoot.C42_set",
    "Rbprm.Shoot.C42_translate"
   ],
   "note": ""
  },
  {
   "property": "C43",
   "status": "proved",
   "theorems": [
    "Rbprm.Shoot.C43_weights",
    "Rbprm.Shoot.C43_monotone",
    "Rbprm.Shoot.C43_draw",
    "Rbprm.Shoot.C43_uniform",
    "Rbprm.Shoot.C43_area",
    "Rbprm.Shoot.C43_normal",
    "Rbprm.Shoot.C43_shot"
   ],
   "note": ""
  },
  {
   "property": "C44",
   "status": "proved",
   "theorems": [
    "Rbprm.Shoot.C44_point"
   ],
   "note": ""
  },
  {
   "property": "C45",
   "status": "partial",
   "theorems": [
    "Rbprm.Shoot.C45_shoot_partial",
    "Rbprm.Shoot.C45_violated",
    "Rbprm.Shoot.C45_no_surface_violated"
   ],
   "note": "Bound and soundness of a found configuration proved; when the limits are exhausted a refused configuration is returned, without surfaces the draw is undefined (violated)."
  },
  {
   "property": "C81",
   "status": "proved",
   "theorems": [
    "Rbprm.Shoot.C81_angles",
    "Rbprm.Shoot.C81_unit",
    "Rbprm.Shoot.C81_euler"
   ],
   "note": ""
  },
  {
   "property": "C82",
   "status": "proved",
   "theorems": [
    "Rbprm.Shoot.C82_surfaces",
    "Rbprm.Shoot.C82_once",
    "Rbprm.Shoot.C82_create"
   ],
   "note": ""
  },
  {
   "property": "C46",
   "status": "proved",
   "theorems": [
    "Rbprm.Support.C46_inside_ccw",
    "Rbprm.Support.C46_inside_cw",
    "Rbprm.Support.C46_separated",
    "Rbprm.Support.C46_outside",
    "Rbprm.Support.C46_hull"
   ],
   "note": ""
  },
  {
   "property": "C83",
   "status": "partial",
   "theorems": [
    "Rbprm.Support.C83_feet",
    "Rbprm.Support.C83_aligned_hull",
    "Rbprm.Support.C83_hull_partial",
    "Rbprm.Support.C83_contains_partial",
    "Rbprm.Support.C83_violated",
    "Rbprm.Support.C83_points_violated"
   ],
   "note": "Proved whenever the rectangle of the first contact is not flat (corners may be aligned, shared or one above the other), and when no three corners are on one line of the border; with point contacts on one line the construction may not end or may miss points (violated)."
  },
  {
   "property": "C47",
   "status": "partial",
   "theorems": [
    "Rbprm.Triangle.C47_inside",
    "Rbprm.Triangle.C47_closest_partial",
    "Rbprm.Triangle.C47_violated"
   ],
   "note": "The result is always in the triangle; it is the closest point outside one region of the case split, in which a farther point is returned (violated)."
  },
  {
   "property": "C84",
   "status": "proved",
   "theorems": [
    "Rbprm.Triangle.C84_pointInTriangle"
   ],
   "note": ""
  },
  {
   "property": "C48",
   "status": "partial",
   "theorems": [
    "Rbprm.Stability.C48_verdict",
    "Rbprm.Stability.C48_negative",
    "Rbprm.Stability.C48_rows",
    "Rbprm.Stability.C48_corners",
    "Rbprm.Stability.C48_no_contact_partial"
   ],
   "note": "The answer of the library for a problem without points is not modelled: the clause on states without contact has it as hypothesis."
  },
  {
   "property": "C49",
   "status": "proved",
   "theorems": [
    "Rbprm.Geom.C49_project",
    "Rbprm.Geom.C49_signed"
   ],
   "note": ""
  },
  {
   "property": "C50",
   "status": "partial",
   "theorems": [
    "Rbprm.Geom.C50_clip2D",
    "Rbprm.Geom.C50_clip3D",
    "Rbprm.Geom.C50_exact_partial",
    "Rbprm.Geom.C50_exact3D_partial",
    "Rbprm.Geom.C50_undefined",
    "Rbprm.Geom.C50_violated"
   ],
   "note": "Proved when the clipping is defined, with exact coverage for convex subject polygons (3D: no three corners on one line of the border); when an intermediate polygon is empty the code reads before the first element (violated)."
  },
  {
   "property": "C85",
   "status": "proved",
   "theorems": [
    "Rbprm.Geom.C85_hull"
   ],
   "note": ""
  },
  {
   "property": "C86",
   "status": "partial",
   "theorems": [
    "Rbprm.Geom.C86_hull_partial",
    "Rbprm.Geom.C86_contains_partial",
    "Rbprm.Geom.C86_degenerate",
    "Rbprm.Geom.C86_violated",
    "Rbprm.Geom.C86_aligned_violated"
   ],
   "note": "Proved when no three points are on one line of the border; one point contains everything and two points contain their whole line (violated), and a corner that is the last of three aligned points can be skipped (violated)."
  },
  {
   "property": "C87",
   "status": "proved",
   "theorems": [
    "Rbprm.Geom.C87_area",
    "Rbprm.Geom.C87_centroid",
    "Rbprm.Geom.C87_centroid_inside",
    "Rbprm.Geom.C87_center"
   ],
   "note": ""
  },
  {
   "property": "C88",
   "status": "proved",
   "theorems": [
    "Rbprm.Geom.C88_segment",
    "Rbprm.Geom.C88_mesh"
   ],
   "note": ""
  },
  {
   "property": "C89",
   "status": "partial",
   "theorems": [
    "Rbprm.Geom.C89_inside",
    "Rbprm.Geom.C89_sound_partial",
    "Rbprm.Geom.C89_complete_partial",
    "Rbprm.Geom.C89_defined",
    "Rbprm.Geom.C89_violated"
   ],
   "note": "Sound whenever defined, exact when all vertices are away from the plane on both sides; undefined when the triangle is on the positive side (violated)."
  },
  {
   "property": "C90",
   "status": "partial",
   "theorems": [
    "Rbprm.Geom.C90_project_partial",
    "Rbprm.Geom.C90_violated"
   ],
   "note": "Everything but membership in the polygon: the edges are prolonged to lines, so the result can be outside near a corner (violated)."
  },
  {
   "property": "C91",
   "status": "partial",
   "theorems": [
    "Rbprm.Support.C91_segment_partial",
    "Rbprm.Support.C91_point_partial",
    "Rbprm.Support.C91_violated",
    "Rbprm.Support.C91_empty"
   ],
   "note": "Single point: exact. Segment: sound only; DistancePointSegment has a wrong sign and divides by zero for axis-parallel segments, and Contains never takes that branch for two distinct points (violated)."
  },
  {
   "property": "C51",
   "status": "proved",
   "theorems": [
    "Rbprm.Reach.C51_equivariant",
    "Rbprm.Reach.C51_inverse",
    "Rbprm.Reach.C51_state",
    "Rbprm.Reach.C51_defined",
    "Rbprm.Reach.C51_monotone",
    "Rbprm.Reach.C51_limb",
    "Rbprm.Reach.C51_all",
    "Rbprm.Reach.C51_verify"
   ],
   "note": ""
  },
  {
   "property": "C52",
   "status": "proved",
   "theorems": [
    "Rbprm.Reach.C52_status",
    "Rbprm.Reach.C52_success",
    "Rbprm.Reach.C52_feasible",
    "Rbprm.Reach.C52_unable",
    "Rbprm.Reach.C52_intermediate"
   ],
   "note": ""
  },
  {
   "property": "C53",
   "status": "partial",
   "theorems": [
    "Rbprm.Reach.C53_timings_partial",
    "Rbprm.Reach.C53_table",
    "Rbprm.Reach.C53_violated"
   ],
   "note": "The last row of the table is never tried (violated); everything else proved."
  },
  {
   "property": "C92",
   "status": "proved",
   "theorems": [
    "Rbprm.Reach.C92_mesh",
    "Rbprm.Reach.C92_transform"
   ],
   "note": ""
  },
  {
   "property": "C93",
   "status": "partial",
   "theorems": [
    "Rbprm.Reach.C93_cone_partial",
    "Rbprm.Reach.C93_polytope",
    "Rbprm.Reach.C93_feet",
    "Rbprm.Reach.C93_violated"
   ],
   "note": "Proved for cones (right-hand side 0); otherwise the rows are normalised but not the right-hand side (violated)."
  },
  {
   "property": "C94",
   "status": "partial",
   "theorems": [
    "Rbprm.Reach.C94_partial",
    "Rbprm.Reach.C94_violated",
    "Rbprm.Reach.C94_violated_case"
   ],
   "note": "With an intermediate state the acceleration is ignored (violated)."
  },
  {
   "property": "C95",
   "status": "partial",
   "theorems": [
    "Rbprm.Reach.C95_partial",
    "Rbprm.Reach.C95_violated"
   ],
   "note": "Proved when a contact is broken and created; with only one of them the reported point is half of the point that was found (violated)."
  },
  {
   "property": "C96",
   "status": "proved",
   "theorems": [
    "Rbprm.Reach.C96_paths",
    "Rbprm.Reach.C96_velocities"
   ],
   "note": ""
  },
  {
   "property": "C97",
   "status": "partial",
   "theorems": [
    "Rbprm.Reach.C97_partial",
    "Rbprm.Reach.C97_violated"
   ],
   "note": "Objects with automatic storage are deleted whenever the solver was called (violated)."
  },
  {
   "property": "C63",
   "status": "partial",
   "theorems": [
    "Rbprm.Watch.C63_history_partial",
    "Rbprm.Watch.C63_order_partial",
    "Rbprm.Watch.C63_unknown",
    "Rbprm.Watch.C63_inactive",
    "Rbprm.Watch.C63_reset",
    "Rbprm.Watch.C63_violated",
    "Rbprm.Watch.C63_start_violated"
   ],
   "note": "Histories without pause (see C98). A lapse of 0 is taken for an unset minimum, and a start that throws creates a record (violated)."
  },
  {
   "property": "C98",
   "status": "partial",
   "theorems": [
    "Rbprm.Watch.C98_partial",
    "Rbprm.Watch.C98_violated",
    "Rbprm.Watch.C98_realtime_violated"
   ],
   "note": "pause adds clock ticks to seconds, reads the wrong clock in real time mode, and stop forgets the part before the pause in the last time (violated); what it leaves unchanged is proved."
  },
  {
   "property": "C64",
   "status": "partial",
   "theorems": [
    "Rbprm.Analysis.C64_partial",
    "Rbprm.Analysis.C64_violated",
    "Rbprm.Analysis.C64_scale_violated"
   ],
   "note": "In [0, 1] only when the least singular value is at most 1; otherwise not a number, and not scale invariant (violated)."
  },
  {
   "property": "C99",
   "status": "proved",
   "theorems": [
    "Rbprm.Analysis.C99_extremes",
    "Rbprm.Analysis.C99_rows"
   ],
   "note": "The singular values are those of an oracle (Eigen's SVD)."
  },
  {
   "property": "C100",
   "status": "proved",
   "theorems": [
    "Rbprm.Analysis.C100_manipulability"
   ],
   "note": ""
  },
  {
   "property": "C101",
   "status": "partial",
   "theorems": [
    "Rbprm.Analysis.C101_probability",
    "Rbprm.Analysis.C101_db",
    "Rbprm.Analysis.C101_violated"
   ],
   "note": "Proved for the first robot; the data base is shared by all robots of the process (violated)."
  },
  {
   "property": "C102",
   "status": "partial",
   "theorems": [
    "Rbprm.Analysis.C102_partial",
    "Rbprm.Analysis.C102_violated"
   ],
   "note": "Proved when the walk stops at the effector's joint; if the effector frame has another name than its joint, joints behind it count (violated)."
  },
  {
   "property": "C103",
   "status": "partial",
   "theorems": [
    "Rbprm.Analysis.C103_partial",
    "Rbprm.Analysis.C103_weights",
    "Rbprm.Analysis.C103_number",
    "Rbprm.Analysis.C103_violated"
   ],
   "note": "Proved up to the first degree of freedom of the last joint; its other ones are ignored (violated)."
  },
  {
   "property": "C104",
   "status": "partial",
   "theorems": [
    "Rbprm.Analysis.C104_partial",
    "Rbprm.Analysis.C104_violated"
   ],
   "note": "Proved when only one limb starts at the rank; otherwise the first one is taken (violated)."
  },
  {
   "property": "C105",
   "status": "partial",
   "theorems": [
    "Rbprm.Heur.C105_partial",
    "Rbprm.Heur.C105_violated"
   ],
   "note": "The path of the centre of mass, the position on it and the reference offset are not copied (violated); the other members are."
  },
  {
   "property": "C106",
   "status": "proved",
   "theorems": [
    "Rbprm.Heur.C106_ground",
    "Rbprm.Heur.C106_empty"
   ],
   "note": ""
  },
  {
   "property": "C107",
   "status": "proved",
   "theorems": [
    "Rbprm.Heur.C107_projection",
    "Rbprm.Heur.C107_support",
    "Rbprm.Heur.C107_transform"
   ],
   "note": ""
  },
  {
   "property": "C108",
   "status": "proved",
   "theorems": [
    "Rbprm.Heur.C108_hull"
   ],
   "note": ""
  },
  {
   "property": "C109",
   "status": "proved",
   "theorems": [
    "Rbprm.Heur.C109_centroid",
    "Rbprm.Heur.C109_small",
    "Rbprm.Heur.C109_equal_loops",
    "Rbprm.Heur.C109_of_hull"
   ],
   "note": ""
  },
  {
   "property": "C110",
   "status": "partial",
   "theorems": [
    "Rbprm.Heur.C110_partial",
    "Rbprm.Heur.C110_violated",
    "Rbprm.Heur.C110_limb_violated"
   ],
   "note": "Termination and value proved (for contacts the tolerance of the hull tells apart); along y the guard tests the wrong acceleration, and a limb already in contact is evaluated at its old position (violated)."
  },
  {
   "property": "C111",
   "status": "partial",
   "theorems": [
    "Rbprm.Heur.C111_efort",
    "Rbprm.Heur.C111_manipulability",
    "Rbprm.Heur.C111_directions",
    "Rbprm.Heur.C111_fixedStep",
    "Rbprm.Heur.C111_forward_violated",
    "Rbprm.Factory.C111_jointlimits",
    "Rbprm.Factory.C111_jointlimits_violated"
   ],
   "note": "forward adds the square of the height: proved for equal heights, violated otherwise. jointlimits is the norm of the configuration, which is largest at the limits of ranges centred at 0 (violated)."
  },
  {
   "property": "C112",
   "status": "partial",
   "theorems": [
    "Rbprm.Heur.C112_null",
    "Rbprm.Heur.C112_value",
    "Rbprm.Heur.C112_partial",
    "Rbprm.Heur.C112_violated"
   ],
   "note": "Proved for positions in front of the limb; behind it crossed positions are preferred (violated)."
  },
  {
   "property": "C65",
   "status": "partial",
   "theorems": [
    "Rbprm.Node.C65_blocks",
    "Rbprm.Node.C65_dynamics",
    "Rbprm.Node.C65_rectangle",
    "Rbprm.Node.C65_violated"
   ],
   "note": "Blocks, dynamics and corners proved; when no contact point can be computed uninitialised values are used (violated)."
  },
  {
   "property": "C113",
   "status": "partial",
   "theorems": [
    "Rbprm.Node.C113_partial",
    "Rbprm.Node.C113_flat_partial",
    "Rbprm.Node.C113_head",
    "Rbprm.Node.C113_violated"
   ],
   "note": "Proved on horizontal surfaces; on slopes the tangents are not normalised, so that the cone is inside the friction cone and the rectangle too small (violated)."
  },
  {
   "property": "C114",
   "status": "partial",
   "theorems": [
    "Rbprm.Node.C114_best",
    "Rbprm.Node.C114_single",
    "Rbprm.Node.C114_all",
    "Rbprm.Node.C114_point",
    "Rbprm.Node.C114_surface",
    "Rbprm.Node.C114_violated"
   ],
   "note": "A report that cannot be cast stops the loop over the ROMs (violated)."
  },
  {
   "property": "C54",
   "status": "partial",
   "theorems": [
    "Rbprm.Optimise.C54_partial",
    "Rbprm.Optimise.C54_terminates_partial",
    "Rbprm.Optimise.C54_defined_partial",
    "Rbprm.Optimise.C54_hang_violated",
    "Rbprm.Optimise.C54_null_violated",
    "Rbprm.Optimise.C54_alias_violated",
    "Rbprm.Optimise.C54_zero_violated"
   ],
   "note": "Proved while no extraction throws; short detours can loop for ever, a null result is dereferenced when no evaluation succeeds, after a failed extraction the aliased result is appended to itself, NumberOfLoops = 0 throws (all violated)."
  },
  {
   "property": "C115",
   "status": "partial",
   "theorems": [
    "Rbprm.Optimise.C115_partial",
    "Rbprm.Optimise.C115_violated",
    "Rbprm.Optimise.C115_null_violated"
   ],
   "note": "The path is returned unchanged, so the ends are kept; the vectors are passed by value, so that no element is ever replaced (violated), and a non-kinodynamic element gives a null pointer (violated)."
  },
  {
   "property": "C55",
   "status": "partial",
   "theorems": [
    "Rbprm.Dynamic.C55_forward_partial",
    "Rbprm.Dynamic.C55_backward_partial",
    "Rbprm.Dynamic.C55_all_times_partial",
    "Rbprm.Dynamic.C55_all_times_backward_partial",
    "Rbprm.Dynamic.C55_margin",
    "Rbprm.Dynamic.C55_violated",
    "Rbprm.Dynamic.C55_short_violated"
   ],
   "note": "Proved when the bounds are recomputed; when the fixed bounds are kept nothing is checked, and switching times closer than epsilon are skipped (violated)."
  },
  {
   "property": "C116",
   "status": "partial",
   "theorems": [
    "Rbprm.Dynamic.C116_partial",
    "Rbprm.Dynamic.C116_direction",
    "Rbprm.Dynamic.C116_violated"
   ],
   "note": "Proved along x and y when the largest acceleration is between the margin and the fixed bound; along z the fixed bound is used, and below the margin the absolute value exceeds it (violated)."
  },
  {
   "property": "C57",
   "status": "partial",
   "theorems": [
    "Rbprm.Dynamic.C57_partial",
    "Rbprm.Dynamic.C57_number",
    "Rbprm.Dynamic.C57_cache_violated",
    "Rbprm.Dynamic.C57_names_violated",
    "Rbprm.Dynamic.C57_position_violated",
    "Rbprm.Dynamic.C57_null_violated"
   ],
   "note": "Proved for histories of accepted calls with a fixed set of ROMs per number, with the matrices of an earlier configuration with the same contacts; a rejected acceleration is accepted when asked again, names are not compared, the matrices are not recomputed when the robot moves, and without initial report a null pointer is used (violated)."
  },
  {
   "property": "C56",
   "status": "partial",
   "theorems": [
    "Rbprm.Planner.C56_partial",
    "Rbprm.Planner.C56_route",
    "Rbprm.Planner.C56_connects",
    "Rbprm.Planner.C56_direct_partial",
    "Rbprm.Planner.C56_jump_target",
    "Rbprm.Planner.C56_goal_violated",
    "Rbprm.Planner.C56_jump_violated",
    "Rbprm.Planner.C56_null_violated"
   ],
   "note": "Proved for every history of oneStep; the direct connections to the goals add an edge without comparing the end of the path with the goal (violated when the steering method stops early, and for jumps), and dereference a null report for a path of length 0 (violated)."
  },
  {
   "property": "C62",
   "status": "partial",
   "theorems": [
    "Rbprm.Parabola.C62_ends",
    "Rbprm.Parabola.C62_partial",
    "Rbprm.Parabola.C62_extract",
    "Rbprm.Parabola.C62_violated",
    "Rbprm.Parabola.C62_axis_violated"
   ],
   "note": "Ends, horizontal position, extraction and reversal proved; the interpolation overwrites the height, so the path is a straight line strictly below its parabola, and a path without movement along x stays at its initial configuration (violated)."
  },
  {
   "property": "C117",
   "status": "proved",
   "theorems": [
    "Rbprm.Parabola.C117_jump",
    "Rbprm.Parabola.C117_complete",
    "Rbprm.Parabola.C117_returned"
   ],
   "note": ""
  },
  {
   "property": "C118",
   "status": "partial",
   "theorems": [
    "Rbprm.Parabola.C118_partial",
    "Rbprm.Parabola.C118_range_violated",
    "Rbprm.Parabola.C118_height_violated",
    "Rbprm.Parabola.C118_reverse_violated"
   ],
   "note": "Ends, horizontal position, velocity and acceleration proved; height (violated), time range = horizontal distance instead of the duration (violated), reversed jump has a negative length (violated)."
  },
  {
   "property": "C58",
   "status": "proved",
   "theorems": [
    "Rbprm.Paths.C58_ends",
    "Rbprm.Paths.C58_ends_constrained",
    "Rbprm.Paths.C58_degenerate",
    "Rbprm.Paths.C58_monotone",
    "Rbprm.Paths.C58_extract",
    "Rbprm.Paths.C58_extract_checked",
    "Rbprm.Paths.C58_extract_defined",
    "Rbprm.Paths.C58_joints",
    "Rbprm.Paths.C58_constrained_joints_differ",
    "Rbprm.Paths.C58_setters",
    "Rbprm.Paths.C58_degenerate_extract"
   ],
   "note": "Extraction commutes for the extra degree of freedom (with constraints) and for all joints (without constraints and with a geodesic interpolation); an example shows that constrained joints differ."
  },
  {
   "property": "C59",
   "status": "partial",
   "theorems": [
    "Rbprm.Paths.C59_com",
    "Rbprm.Paths.C59_inconsistent",
    "Rbprm.Paths.C59_reverse_violated",
    "Rbprm.Paths.C59_polynom",
    "Rbprm.Paths.C59_zero_violated"
   ],
   "note": "Proved for intervals in order and ranges that do not start below 0; reversed intervals do not give the reversed trajectory, and a polynomial trajectory whose range ends at 0 is constant (violated)."
  },
  {
   "property": "C60",
   "status": "partial",
   "theorems": [
    "Rbprm.Paths.C60_partial",
    "Rbprm.Paths.C60_monotone",
    "Rbprm.Paths.C60_violated"
   ],
   "note": "Exact characterisation of acceptance; the last tenth is never checked (violated)."
  },
  {
   "property": "C61",
   "status": "proved",
   "theorems": [
    "Rbprm.Paths.C61_result",
    "Rbprm.Paths.C61_schedule",
    "Rbprm.Paths.C61_waits",
    "Rbprm.Paths.C61_leads",
    "Rbprm.Paths.C61_bounds"
   ],
   "note": ""
  },
  {
   "property": "C119",
   "status": "partial",
   "theorems": [
    "Rbprm.Paths.C119_bezier_partial",
    "Rbprm.Paths.C119_outside",
    "Rbprm.Paths.C119_clamped",
    "Rbprm.Paths.C119_waypoints",
    "Rbprm.Paths.C119_offset_violated"
   ],
   "note": "Proved for curves starting at time 0 (the constructor from waypoints builds those); with another start the joints are not those of the initial configuration (violated)."
  },
  {
   "property": "C120",
   "status": "partial",
   "theorems": [
    "Rbprm.Interp.C120_shoot",
    "Rbprm.Interp.C120_instant",
    "Rbprm.Interp.C120_defined",
    "Rbprm.Interp.C120_free",
    "Rbprm.Interp.C120_drawn",
    "Rbprm.Interp.C120_last_violated"
   ],
   "note": "Everything but: the last sample of a limb is never drawn (violated)."
  },
  {
   "property": "C121",
   "status": "partial",
   "theorems": [
    "Rbprm.Interp.C121_contacts",
    "Rbprm.Interp.C121_comRRT",
    "Rbprm.Interp.C121_defined",
    "Rbprm.Interp.C121_start",
    "Rbprm.Interp.C121_end_partial",
    "Rbprm.Interp.C121_end_violated",
    "Rbprm.Interp.C121_effector_partial",
    "Rbprm.Interp.C121_garbage_violated",
    "Rbprm.Interp.C121_com_violated",
    "Rbprm.Interp.C121_locked_violated",
    "Rbprm.Interp.C121_joints_violated"
   ],
   "note": "Exact characterisation of the accepted configurations; a contact that moves less than 1 cm makes the final configuration rejected, comRRT ignores its centre-of-mass reference, effectorRRT has an uninitialised target and ignores the constrained joints (violated)."
  },
  {
   "property": "C122",
   "status": "proved",
   "theorems": [
    "Rbprm.Interp.C122_project",
    "Rbprm.Interp.C122_com"
   ],
   "note": ""
  },
  {
   "property": "C123",
   "status": "partial",
   "theorems": [
    "Rbprm.Interp.C123_sizes_partial",
    "Rbprm.Interp.C123_velocity_violated",
    "Rbprm.Interp.C123_ends",
    "Rbprm.Interp.C123_states",
    "Rbprm.Interp.C123_time_violated"
   ],
   "note": "Configurations and states proved; derivatives have one coordinate less than declared and the extra degree of freedom jumps between transitions (violated)."
  },
  {
   "property": "C124",
   "status": "proved",
   "theorems": [
    "Rbprm.Effector.C124_generate",
    "Rbprm.Effector.C124_references",
    "Rbprm.Effector.C124_path"
   ],
   "note": "Under the contract of the library bezier-com-traj (satisfied by demoLib), for centre-of-mass paths of more than 0.7 s."
  },
  {
   "property": "C125",
   "status": "partial",
   "theorems": [
    "Rbprm.Effector.C125_offset",
    "Rbprm.Effector.C125_monotone",
    "Rbprm.Effector.C125_slow_violated",
    "Rbprm.Effector.C125_fast_violated",
    "Rbprm.Effector.C125_delay_violated"
   ],
   "note": "Proved between 0.7 s and 4.3 s; negative offset from 4.9 s on, negative middle duration below 0.7 s, delay not respected (violated)."
  },
  {
   "property": "C126",
   "status": "partial",
   "theorems": [
    "Rbprm.Effector.C126_attempts",
    "Rbprm.Effector.C126_returns",
    "Rbprm.Effector.C126_complete",
    "Rbprm.Effector.C126_still",
    "Rbprm.Effector.C126_solver_violated",
    "Rbprm.Effector.C126_normal_violated",
    "Rbprm.Effector.C126_stale_violated"
   ],
   "note": "Order of the attempts, result and storage proved; undefined behaviour if the solver failed for the followed reference, exception for an effector that was not in contact, stale curves if the returned path is not added (violated)."
  },
  {
   "property": "C127",
   "status": "proved",
   "theorems": [
    "Rbprm.Effector.C127_position",
    "Rbprm.Effector.C127_terminates",
    "Rbprm.Effector.C127_ends"
   ],
   "note": ""
  },
  {
   "property": "C128",
   "status": "proved",
   "theorems": [
    "Rbprm.Joints.C128_locked",
    "Rbprm.Joints.C128_free",
    "Rbprm.Joints.C128_spared",
    "Rbprm.Joints.C128_spared_limbs",
    "Rbprm.Joints.C128_coordinates",
    "Rbprm.Joints.C128_effector",
    "Rbprm.Joints.C128_effector_chain"
   ],
   "note": ""
  },
  {
   "property": "C129",
   "status": "partial",
   "theorems": [
    "Rbprm.Joints.C129_all",
    "Rbprm.Joints.C129_disabled",
    "Rbprm.Joints.C129_body",
    "Rbprm.Joints.C129_leaf_violated",
    "Rbprm.Joints.C129_second_violated"
   ],
   "note": "Exact pairs proved; with disabled collisions all leaves of the tree are dropped as well, and the body follows the first limb only (violated)."
  },
  {
   "property": "C130",
   "status": "partial",
   "theorems": [
    "Rbprm.Joints.C130_exact",
    "Rbprm.Joints.C130_trunk_violated",
    "Rbprm.Joints.C130_still",
    "Rbprm.Joints.C130_subset",
    "Rbprm.Joints.C130_root_violated",
    "Rbprm.Joints.C130_frame_violated"
   ],
   "note": "Exact pairs proved when every joint had all its pairs; a root without pair stops the removal, an effector that is not a joint makes the interpolation throw (violated). The trunk is never tested during a motion."
  },
  {
   "property": "C131",
   "status": "partial",
   "theorems": [
    "Rbprm.Proj.C131_rotation",
    "Rbprm.Proj.C131_surface",
    "Rbprm.Proj.C131_given",
    "Rbprm.Proj.C131_postural_partial",
    "Rbprm.Proj.C131_point_partial",
    "Rbprm.Proj.C131_triangle",
    "Rbprm.Proj.C131_point_violated",
    "Rbprm.Proj.C131_postural_violated",
    "Rbprm.Proj.C131_example"
   ],
   "note": "Proved for surface contacts without the postural task, and for offsets and normals along z with it; with a free rotation the contact point is off the requested position if the limb has an offset (violated)."
  },
  {
   "property": "C132",
   "status": "partial",
   "theorems": [
    "Rbprm.Proj.C132_rootPosition",
    "Rbprm.Proj.C132_rootConfiguration",
    "Rbprm.Proj.C132_offset",
    "Rbprm.Proj.C132_com",
    "Rbprm.Proj.C132_contacts",
    "Rbprm.Proj.C132_robustness_violated",
    "Rbprm.Proj.C132_defined",
    "Rbprm.Proj.C132_example"
   ],
   "note": "Everything but the robustness, which is not copied (violated)."
  },
  {
   "property": "C133",
   "status": "partial",
   "theorems": [
    "Rbprm.Proj.C133_success",
    "Rbprm.Proj.C133_contacts",
    "Rbprm.Proj.C133_discarded_violated",
    "Rbprm.Proj.C133_free_violated"
   ],
   "note": "Soundness proved; the configurations found for the free limbs are thrown away (violated)."
  },
  {
   "property": "C134",
   "status": "partial",
   "theorems": [
    "Rbprm.Proj.C134_success",
    "Rbprm.Proj.C134_failure",
    "Rbprm.Proj.C134_locked",
    "Rbprm.Proj.C134_locked_violated",
    "Rbprm.Proj.C134_sample",
    "Rbprm.Proj.C134_example"
   ],
   "note": "Everything proved, but locked joints are taken from the device instead of the state (violated)."
  },
  {
   "property": "C135",
   "status": "partial",
   "theorems": [
    "Rbprm.Tools.C135_z",
    "Rbprm.Tools.C135_y",
    "Rbprm.Tools.C135_x_exact",
    "Rbprm.Tools.C135_x_violated",
    "Rbprm.Tools.C135_x_orthogonal_violated",
    "Rbprm.Tools.C135_uninitialised_violated"
   ],
   "note": "About y and z: exactly when the uninitialised entries are 0; about x never, the sine is at the wrong place (violated)."
  },
  {
   "property": "C136",
   "status": "partial",
   "theorems": [
    "Rbprm.Tools.C136_range",
    "Rbprm.Tools.C136_symmetric",
    "Rbprm.Tools.C136_sign",
    "Rbprm.Tools.C136_zero",
    "Rbprm.Tools.C136_triangle",
    "Rbprm.Tools.C136_ends",
    "Rbprm.Tools.C136_unit_partial",
    "Rbprm.Tools.C136_speed_partial",
    "Rbprm.Tools.C136_near_partial",
    "Rbprm.Tools.C136_unit_violated",
    "Rbprm.Tools.C136_example"
   ],
   "note": "Everything but the unit norm and speed for quaternions nearer than 1e-4 rad, where the norm is at least 1 - 2.5e-9 but not 1 (violated)."
  },
  {
   "property": "C137",
   "status": "partial",
   "theorems": [
    "Rbprm.Dev.C137_config",
    "Rbprm.Dev.C137_answer",
    "Rbprm.Dev.C137_answer_violated",
    "Rbprm.Dev.C137_extra",
    "Rbprm.Dev.C137_extra_values",
    "Rbprm.Dev.C137_reference",
    "Rbprm.Dev.C137_unset_violated"
   ],
   "note": "Everything but: the answer ignores the ROMs, and an unset reference is uninitialised memory (violated)."
  },
  {
   "property": "C138",
   "status": "partial",
   "theorems": [
    "Rbprm.Dev.C138_create",
    "Rbprm.Dev.C138_added",
    "Rbprm.Dev.C138_added_nonContacting",
    "Rbprm.Dev.C138_toggle_answer",
    "Rbprm.Dev.C138_axes_partial",
    "Rbprm.Dev.C138_axes_next",
    "Rbprm.Dev.C138_axes_violated",
    "Rbprm.Dev.C138_moves_violated",
    "Rbprm.Dev.C138_reference",
    "Rbprm.Dev.C138_set",
    "Rbprm.Dev.C138_last_partial",
    "Rbprm.Dev.C138_history",
    "Rbprm.Dev.C138_order_violated",
    "Rbprm.Dev.C138_toggle_violated"
   ],
   "note": "Axes proved when the transforms are those of the neutral configuration (they are after another limb was added), references for contacting limbs that were there when the reference configuration was set; stale transforms, later or toggled limbs and the moved device are violations."
  },
  {
   "property": "C139",
   "status": "partial",
   "theorems": [
    "Rbprm.Dev.C139_position",
    "Rbprm.Dev.C139_predicted_partial",
    "Rbprm.Dev.C139_predicted_violated",
    "Rbprm.Dev.C139_contact_violated",
    "Rbprm.Dev.C139_orientation_violated",
    "Rbprm.Dev.C139_limb_frame",
    "Rbprm.Dev.C139_length",
    "Rbprm.Dev.C139_example"
   ],
   "note": "Proved for limbs without offset; exact conditions otherwise: the offset is added along the axes of the world (violated)."
  },
  {
   "property": "C140",
   "status": "partial",
   "theorems": [
    "Rbprm.Dev.C140_partial",
    "Rbprm.Dev.C140_normal_partial",
    "Rbprm.Dev.C140_violated",
    "Rbprm.Dev.C140_normal_violated",
    "Rbprm.Dev.C140_example"
   ],
   "note": "Proved for obstacles at the identity placement; others are used as if they were there (violated)."
  },
  {
   "property": "C141",
   "status": "partial",
   "theorems": [
    "Rbprm.Restore.C141_copy_partial",
    "Rbprm.Restore.C141_analysis",
    "Rbprm.Restore.C141_flag",
    "Rbprm.Restore.C141_during",
    "Rbprm.Restore.C141_reference_violated",
    "Rbprm.Restore.C141_reference_iff",
    "Rbprm.Restore.C141_transforms_violated",
    "Rbprm.Restore.C141_throw_violated"
   ],
   "note": "Proved for the analysis functions; for the others the configuration is given back if it is saved by value (it is declared as a reference, which gives back nothing), but the transforms are not, and nothing is after an exception."
  },
  {
   "property": "C142",
   "status": "partial",
   "theorems": [
    "Rbprm.Restore.C142_cone_partial",
    "Rbprm.Restore.C142_friction_violated",
    "Rbprm.Restore.C142_failure_violated",
    "Rbprm.Restore.C142_defined"
   ],
   "note": "The cone is that of the library for the robot's friction coefficient; the argument is ignored and a failure gives a cone that accepts everything (violated). The library is a parameter."
  },
  {
   "property": "C143",
   "status": "proved",
   "theorems": [
    "Rbprm.Factory.C143_heuristics",
    "Rbprm.Factory.C143_analyses",
    "Rbprm.Factory.C143_kept"
   ],
   "note": ""
  },
  {
   "property": "C144",
   "status": "partial",
   "theorems": [
    "Rbprm.Reach.C144_partial",
    "Rbprm.Reach.C144_violated",
    "Rbprm.Reach.C144_root_violated"
   ],
   "note": "Proved but for the break of one limb with the creation of another one, which is not 'too many' (violated); a root that stays in its place is a success whatever the contacts (violated)."
  },
  {
   "property": "C145",
   "status": "partial",
   "theorems": [
    "Rbprm.Reach.C145_target_partial",
    "Rbprm.Reach.C145_nearest_partial",
    "Rbprm.Reach.C145_violated"
   ],
   "note": "Proved when the states have a contact in common; for the repositioning of the only contact the mean of no points is computed (violated)."
  },
  {
   "property": "C146",
   "status": "proved",
   "theorems": [
    "Rbprm.Interp.C146_gives_up",
    "Rbprm.Interp.C146_watch",
    "Rbprm.Interp.C146_second_failure"
   ],
   "note": ""
  },
  {
   "property": "C147",
   "status": "partial",
   "theorems": [
    "Rbprm.Setup.C147_feet_partial",
    "Rbprm.Setup.C147_jump_partial",
    "Rbprm.Setup.C147_friction_violated"
   ],
   "note": "Proved on horizontal surfaces (on slopes the rectangle shrinks, see C113); the friction of the jumps is always 0.5 (violated)."
  },
  {
   "property": "C148",
   "status": "partial",
   "theorems": [
    "Rbprm.Setup.C148_steps_partial",
    "Rbprm.Setup.C148_violated"
   ],
   "note": "The steps keep the content of the roadmap, but the given roadmap is replaced by an empty one at creation (violated)."
  },
  {
   "property": "C149",
   "status": "partial",
   "theorems": [
    "Rbprm.Setup.C149_node",
    "Rbprm.Setup.C149_steer_partial",
    "Rbprm.Setup.C149_history",
    "Rbprm.Setup.C149_create",
    "Rbprm.Setup.C149_steer_violated",
    "Rbprm.Setup.C149_flag_violated"
   ],
   "note": "Proved for the planner; the optimisers use the surface that happens to be first, which depends on what was validated before, and the option computeAllContacts of the user is lost (violated)."
  },
  {
   "property": "C150",
   "status": "partial",
   "theorems": [
    "Rbprm.Validation.C150_history_partial",
    "Rbprm.Validation.C150_add",
    "Rbprm.Validation.C150_exception_violated"
   ],
   "note": "Proved when hpp-core ignores the removal of an obstacle that is not registered; when it raises an exception, no surface can ever be removed from a ROM (violated)."
  },
  {
   "property": "C151",
   "status": "partial",
   "theorems": [
    "Rbprm.RRT.C151_limbRRT",
    "Rbprm.RRT.C151_limbRRTFromPath",
    "Rbprm.RRT.C151_comRRTFromPath",
    "Rbprm.RRT.C151_comRRT_partial",
    "Rbprm.RRT.C151_tolerance_violated",
    "Rbprm.RRT.C151_draws",
    "Rbprm.RRT.C151_steer_draws"
   ],
   "note": "Proved for limbRRT and the variants from a path; comRRT only keeps the contacts within 5 cm (violated).  Planner, optimisers and projector of hpp-core by contract."
  },
  {
   "property": "C152",
   "status": "partial",
   "theorems": [
    "Rbprm.RRT.C152_returns",
    "Rbprm.RRT.C152_guide",
    "Rbprm.RRT.C152_drift_violated",
    "Rbprm.RRT.C152_com_drift_violated",
    "Rbprm.RRT.C152_exception_violated",
    "Rbprm.RRT.C152_com_violated"
   ],
   "note": "Return and guide proved; a contact displaced by 1 mm to 1 cm counts as kept but makes limbRRT and comRRT run for ever; without moving limb a failure of the guide planner escapes and the guide ignores the contacts; the path of the centre of mass is not used (violated)."
  },
  {
   "property": "C153",
   "status": "partial",
   "theorems": [
    "Rbprm.Surface.C153_plane",
    "Rbprm.Surface.C153_normal",
    "Rbprm.Surface.C153_surface_partial",
    "Rbprm.Surface.C153_degenerate_violated",
    "Rbprm.Surface.C153_mesh_violated"
   ],
   "note": "Proved for planar surfaces whose first triangle has an area, no three corners on one line of the border seen from above; only the first triangle defines the plane: with a degenerate one the normal is null and every ROM is in contact, and other triangles of the mesh are ignored (violated)."
  },
  {
   "property": "C154",
   "status": "partial",
   "theorems": [
    "Rbprm.Surface.C154_sound",
    "Rbprm.Surface.C154_defined",
    "Rbprm.Surface.C154_inside_partial",
    "Rbprm.Surface.C154_violated"
   ],
   "note": "Soundness and definedness proved; a contained polygon is kept from four corners on, triangles are lost (violated)."
  },
  {
   "property": "C155",
   "status": "partial",
   "theorems": [
    "Rbprm.Surface.C155_partial",
    "Rbprm.Surface.C155_clockwise",
    "Rbprm.Surface.C155_violated",
    "Rbprm.Surface.C155_projectZ"
   ],
   "note": "The code reads n[3], outside of the normal, and takes the absolute value of the area: right for counter-clockwise polygons if that memory holds the third coordinate, wrong sign for clockwise ones (violated)."
  },
  {
   "property": "C156",
   "status": "partial",
   "theorems": [
    "Rbprm.DynPath.C156_registry",
    "Rbprm.DynPath.C156_path_partial",
    "Rbprm.DynPath.C156_defined",
    "Rbprm.DynPath.C156_filtered",
    "Rbprm.DynPath.C156_order_violated",
    "Rbprm.DynPath.C156_filter_violated"
   ],
   "note": "Proved with the matrices of an earlier tested configuration with the same contacts; a dynamic validation registered first refuses every path, a validation added after that of the ROMs makes a null pointer, and with a filter the other validations are ignored (violated)."
  },
  {
   "property": "C157",
   "status": "partial",
   "theorems": [
    "Rbprm.Shoot.C157_normal",
    "Rbprm.Shoot.C157_push_partial",
    "Rbprm.Shoot.C157_loop",
    "Rbprm.Shoot.C157_violated"
   ],
   "note": "Proved where the bounds of the root let it move and for triangles seen from outside; reversed or degenerate triangles push inwards or not at all (violated)."
  },
  {
   "property": "C158",
   "status": "partial",
   "theorems": [
    "Rbprm.Posture.C158_weights",
    "Rbprm.Posture.C158_cost_partial",
    "Rbprm.Posture.C158_violated",
    "Rbprm.Posture.C158_small_violated"
   ],
   "note": "Weights and cost proved; the mask for the root and the extra degrees of freedom is computed but not used (violated), and out of range for small robots (violated).  Cost function of hpp-constraints by contract."
  },
  {
   "property": "C159",
   "status": "partial",
   "theorems": [
    "Rbprm.Watch.C159_report",
    "Rbprm.Watch.C159_reportAll",
    "Rbprm.Watch.C159_history",
    "Rbprm.Watch.C159_figures_partial",
    "Rbprm.Watch.C159_violated"
   ],
   "note": "Proved for all histories; the figures without pauses and for positive lapses; a lapse of zero makes the minimum greater than the average (violated)."
  },
  {
   "property": "C160",
   "status": "proved",
   "theorems": [
    "Rbprm.Octree.C160_boxes",
    "Rbprm.Octree.C160_position"
   ],
   "note": "octomap by contract (grid cells, no pruning)."
  },
  {
   "property": "C161",
   "status": "partial",
   "theorems": [
    "Rbprm.Octree.C161_found",
    "Rbprm.Octree.C161_partial",
    "Rbprm.Octree.C161_lost",
    "Rbprm.Octree.C161_violated"
   ],
   "note": "Proved when the conversion to float keeps the cell of the positions; otherwise the sample is lost: inserted as float in one cell, looked up as double in another (violated)."
  },
  {
   "property": "C162",
   "status": "partial",
   "theorems": [
    "Rbprm.Copies.C162_com",
    "Rbprm.Copies.C162_com_extract",
    "Rbprm.Copies.C162_poly",
    "Rbprm.Copies.C162_length",
    "Rbprm.Copies.C162_timeConstraint",
    "Rbprm.Copies.C162_timeConstraint_with",
    "Rbprm.Copies.C162_timeConstraint_made",
    "Rbprm.Copies.C162_bezier",
    "Rbprm.Copies.C162_jump",
    "Rbprm.Copies.C162_timed_extract",
    "Rbprm.Copies.C162_changed_violation",
    "Rbprm.Copies.C162_jump_constraints_violation"
   ],
   "note": "Copies are faithful for every path. Violated: after a change of an end, copying a path under constraints throws; the copy of a jump with constraints ignores them; asking a trajectory of the centre of mass or along a curve for one ends the program."
  },
  {
   "property": "C163",
   "status": "partial",
   "theorems": [
    "Rbprm.Copies.C163_partial",
    "Rbprm.Copies.C163_ends",
    "Rbprm.Copies.C163_shape",
    "Rbprm.Copies.C163_uninitialised_violation"
   ],
   "note": "Proved for the constructors given the velocities. The constructor from coefficients reads uninitialised memory: any duration is possible (violated); only the places, at fractions of the duration, do not depend on it."
  },
  {
   "property": "C164",
   "status": "partial",
   "theorems": [
    "Rbprm.RomNames.C164_fill_partial",
    "Rbprm.RomNames.C164_partial",
    "Rbprm.RomNames.C164_reverse",
    "Rbprm.RomNames.C164_back",
    "Rbprm.RomNames.C164_hidden_violation"
   ],
   "note": "Proved for configurations that the other validations of the problem accept; one that refuses hides the contacts (violated).  core::ConfigValidations by contract."
  },
  {
   "property": "C165",
   "status": "proved",
   "theorems": [
    "Rbprm.Interp.C165_plan",
    "Rbprm.Interp.C165_returns",
    "Rbprm.Interp.C165_projections"
   ],
   "note": "The whole of Interpolate with the contact generation and the projections of this library.  With deep filtering, or a goal that releases a contact, an exception is possible (C27_skip_violated, C28_option_violated)."
  },
  {
   "property": "C166",
   "status": "partial",
   "theorems": [
    "Rbprm.Interp.C166_step",
    "Rbprm.Interp.C166_plan_partial",
    "Rbprm.Interp.C166_repositioning",
    "Rbprm.Interp.C166_breakCreate",
    "Rbprm.Interp.C166_reposition_violated",
    "Rbprm.Interp.C166_filter_violated"
   ],
   "note": "Proved for one step of contact generation and for the states before filtering, hence for the plan whenever consecutive states differ in configuration and contacts.  Violated by a library run in which contact generation fails (both contacts released) and by one in which FilterObsolete drops a state whose contacts changed at the same configuration.  Of deep filtering, the two passes that merge steps are covered (C166_repositioning, C166_breakCreate), not the two that rebuild states nor their repetition."
  },
  {
   "property": "C167",
   "status": "proved",
   "theorems": [
    "Rbprm.Random.C167_created",
    "Rbprm.Random.C167_seeded",
    "Rbprm.Random.C167_sequence",
    "Rbprm.Random.C167_seed_violated",
    "Rbprm.Random.C167_repeat_violated"
   ],
   "note": "The generator is abstract and calls are arbitrary programs over rand().  The two last theorems show what a user may not expect: a seed chosen before a creation is lost, and two creations in the same second repeat the draws."
  },
  {
   "property": "C168",
   "status": "partial",
   "theorems": [
    "Rbprm.Interp.C168_step",
    "Rbprm.Interp.C168_plan_partial",
    "Rbprm.Interp.C168_reposition_violated",
    "Rbprm.Interp.C168_goal_violated",
    "Rbprm.Interp.C168_deep_violated",
    "Rbprm.Interp.C168_reachable_violated",
    "Rbprm.Interp.C168_dynamic_violated"
   ],
   "note": "One step is proved without exception, with what the reachability test really compares; a plan is proved up to the states repositioned after a failure, the moves to the goal and the states rebuilt by deep filtering, whose equilibrium the code does not test (violation theorems).  Reachability from the previous state itself is violated: the quasi-static test starts from that state moved to the new configuration, the dynamic one does not test releases."
  },
  {
   "property": "C169",
   "status": "proved",
   "theorems": [
    "Rbprm.Planner.C169_roadmap",
    "Rbprm.Planner.C169_resolution"
   ],
   "note": "the model of the planner is run with the models of the steering method (C55) and of the loop of the path validation (C41); that hpp-core's steering method joins the two configurations, and that extracting an interval of its paths keeps their configurations, is assumed; between two tested configurations nothing is guaranteed (C169_resolution); direct connections to the goals are excluded (C56_goal_violated)"
  },
  {
   "property": "C170",
   "status": "partial",
   "theorems": [
    "Rbprm.Interp.C170_step_partial",
    "Rbprm.Interp.C170_initial",
    "Rbprm.Interp.C170_plan_partial",
    "Rbprm.Interp.C170_violated"
   ],
   "note": "with the postural task of contact creation and the test of reachability the state repositioned after a failure may have a contact at an uninitialised place (C170_violated), so this case is excluded, as are the states rebuilt by deep filtering"
  },
  {
   "property": "C171",
   "status": "partial",
   "theorems": [
    "Rbprm.Interp.C171_contact_partial",
    "Rbprm.Interp.C171_initial_partial",
    "Rbprm.Interp.C171_plan_partial",
    "Rbprm.Interp.C171_example"
   ],
   "note": "for surface contacts (rotation constrained), and, with the postural task, for limbs with offset and normal along z, since otherwise the code violates it (C131_point_violated, C131_postural_violated); the cases excluded by C170 are excluded; the collision of a triangle with a voxel is fcl's answer"
  },
  {
   "property": "C172",
   "status": "partial",
   "theorems": [
    "Rbprm.Interp.C172_step",
    "Rbprm.Interp.C172_plan_partial"
   ],
   "note": "One step is proved without exception; a plan up to the states that C168 excludes (repositioned after a failure, moved to the goal, rebuilt by deep filtering), whose equilibrium the code does not test: C168_reposition_violated, C168_goal_violated, C168_deep_violated"
  },
  {
   "property": "C173",
   "status": "proved",
   "theorems": [
    "Rbprm.Joints.C173_device",
    "Rbprm.Joints.C173_all",
    "Rbprm.Joints.C173_load",
    "Rbprm.Joints.C173_example"
   ],
   "note": "that the projector of hpp-core keeps the locks, and does not change the current configuration of the device, is assumed; the configurations where the tests leave the device are read off the code (stability.cc, reachability.cc, kinematics_constraints.cc)"
  },
  {
   "property": "C174",
   "status": "partial",
   "theorems": [
    "Rbprm.Interp.C174_step",
    "Rbprm.Interp.C174_plan_partial"
   ],
   "note": "One step is proved without exception; in a plan the states repositioned after a failure are excluded, since nothing is checked of them (C168_reposition_violated), as are the start and the goal, given by the user"
  },
  {
   "property": "C175",
   "status": "partial",
   "theorems": [
    "Rbprm.Interp.C175_step",
    "Rbprm.Interp.C175_plan_partial",
    "Rbprm.Interp.C175_violated"
   ],
   "note": "The release is tested from the configuration that the planner gave, with the feet not at the contacts, instead of the state before: C175_violated. In a plan the states that are not tested are excluded (C168_reposition_violated, C168_goal_violated)"
  },
  {
   "property": "C176",
   "status": "partial",
   "theorems": [
    "Rbprm.Interp.C176_step_partial",
    "Rbprm.Interp.C176_plan_partial",
    "Rbprm.Interp.C176_violated",
    "Rbprm.Interp.C176_root_violated"
   ],
   "note": "Steps that only release a contact are not tested in dynamic mode (C176_violated), and a state with the same position of the robot always counts as reachable, without a trajectory (C176_root_violated)"
  },
  {
   "property": "C177",
   "status": "partial",
   "theorems": [
    "Rbprm.Interp.C177_step_partial",
    "Rbprm.Interp.C177_plan_partial",
    "Rbprm.Interp.C177_free_step_partial",
    "Rbprm.Interp.C177_free_plan_partial",
    "Rbprm.Interp.C177_balanced",
    "Rbprm.Interp.C177_equilibrium_violated",
    "Rbprm.Interp.C177_reachability_violated"
   ],
   "note": "Reachability is ignored after a repositioning (C177_reachability_violated), and a single contact is not tested for equilibrium although the report is a success (C177_equilibrium_violated). With the postural task and the test of reachability together nothing is known of the contact (C17_postural_violated, C170_violated): excluded by hypothesis"
  },
  {
   "property": "C178",
   "status": "partial",
   "theorems": [
    "Rbprm.Interp.C178_kept",
    "Rbprm.Interp.C178_repositioned_partial",
    "Rbprm.Interp.C178_violated"
   ],
   "note": "The sets of contacts with one contact less are tried from the configuration that the failed attempts before have left, not from the one given: C178_violated"
  },
  {
   "property": "C179",
   "status": "partial",
   "theorems": [
    "Rbprm.Interp.C179_placed",
    "Rbprm.Interp.C179_free",
    "Rbprm.Interp.C179_balanced_partial",
    "Rbprm.Interp.C179_violated",
    "Rbprm.Interp.C179_group_violated"
   ],
   "note": "Equilibrium is only tested when the last limb is placed: C179_violated, C179_group_violated (see also C22_stable_violated)"
  },
  {
   "property": "C180",
   "status": "partial",
   "theorems": [
    "Rbprm.Interp.C180_filter",
    "Rbprm.Interp.C180_normals",
    "Rbprm.Interp.C180_plan_partial",
    "Rbprm.Interp.C180_projections"
   ],
   "note": "Filtering is covered completely; plans without postural task or without test of reachability (see C170_violated)"
  },
  {
   "property": "C181",
   "status": "partial",
   "theorems": [
    "Rbprm.Interp.C181_shift",
    "Rbprm.Interp.C181_place_partial",
    "Rbprm.Interp.C181_aligned",
    "Rbprm.Interp.C181_violated"
   ],
   "note": "The offset of the limb is not turned with the effector, so the place is only kept if the rotation leaves the offset unchanged: C181_violated is a foot on a wall. Exact solver, no postural task"
  },
  {
   "property": "C182",
   "status": "partial",
   "theorems": [
    "Rbprm.Own.C182_octree",
    "Rbprm.Own.C182_boxes_partial",
    "Rbprm.Own.C182_leak_partial",
    "Rbprm.Own.C182_copy_violated",
    "Rbprm.Own.C182_assign_violated"
   ],
   "note": "octrees: proved for all programs; boxes: proved for programs without copies and assignments; with them the destructor deletes the same boxes twice (the declarations that would forbid copies are commented out), proved as violations"
  },
  {
   "property": "C183",
   "status": "partial",
   "theorems": [
    "Rbprm.Paths.C183_answer",
    "Rbprm.Paths.C183_forward_partial",
    "Rbprm.Paths.C183_backward_partial",
    "Rbprm.Paths.C183_rejected",
    "Rbprm.Paths.C183_violated"
   ],
   "note": "Proved forwards, and backwards for the paths that the additional tests do not reject; backwards the part of a path rejected by these tests is its start (C183_violated)."
  },
  {
   "property": "C184",
   "status": "proved",
   "theorems": [
    "Rbprm.Contact.C184_maintained",
    "Rbprm.Contact.C184_created",
    "Rbprm.Contact.C184_rounds",
    "Rbprm.Contact.C184_round",
    "Rbprm.Contact.C184_compute"
   ],
   "note": ""
  },
  {
   "property": "C185",
   "status": "partial",
   "theorems": [
    "Rbprm.Motion.C185_upward_partial",
    "Rbprm.Motion.C185_violated",
    "Rbprm.Motion.C185_heuristics_violated"
   ],
   "note": "The direction is (0, 0, 1) whatever the motion, as the flag nonZero is never set: proved for motions straight up only."
  },
  {
   "property": "C186",
   "status": "partial",
   "theorems": [
    "Rbprm.Motion.C186_dynamics_partial",
    "Rbprm.Motion.C186_static",
    "Rbprm.Motion.C186_root",
    "Rbprm.Motion.C186_outside_violated",
    "Rbprm.Motion.C186_speed_violated"
   ],
   "note": "Proved with exactly six extra degrees of freedom; without them the speed is made of joint values, with four or five the acceleration is read outside of the configuration."
  },
  {
   "property": "C187",
   "status": "partial",
   "theorems": [
    "Rbprm.Interp.C187_calls_partial",
    "Rbprm.Interp.C187_skip",
    "Rbprm.Interp.C187_target",
    "Rbprm.Interp.C187_violated",
    "Rbprm.Interp.C187_path_violated",
    "Rbprm.Interp.C187_target_violated"
   ],
   "note": "The time is the one of the configuration or of the sample before; it is the latter for all calls if contact generation always succeeds."
  },
  {
   "property": "C188",
   "status": "proved",
   "theorems": [
    "Rbprm.Contact.C188_independent",
    "Rbprm.Contact.C188_best",
    "Rbprm.Contact.C188_complete",
    "Rbprm.Contact.C188_candidates",
    "Rbprm.Contact.C188_example"
   ],
   "note": "Under the contract that placing a limb changes only the coordinates of that limb (C173)."
  },
  {
   "property": "C189",
   "status": "proved",
   "theorems": [
    "Rbprm.Interp.C189_exhausted",
    "Rbprm.Interp.C189_idempotent",
    "Rbprm.Interp.C189_shallow_not_idempotent",
    "Rbprm.Interp.C189_example"
   ],
   "note": "The shallow mode, of which nothing of this is claimed, is not idempotent (C189_shallow_not_idempotent). That the filter may throw is C27."
  },
  {
   "property": "C190",
   "status": "proved",
   "theorems": [
    "Rbprm.PathValidation.C190_exact",
    "Rbprm.PathValidation.C190_accepted",
    "Rbprm.PathValidation.C190_refused",
    "Rbprm.PathValidation.C190_again",
    "Rbprm.PathValidation.C190_example"
   ],
   "note": "Only the configurations at the steps are tested: nothing is claimed of those in between."
  },
  {
   "property": "C191",
   "status": "partial",
   "theorems": [
    "Rbprm.Shoot.C191_partial",
    "Rbprm.Shoot.C191_path",
    "Rbprm.Shoot.C191_example",
    "Rbprm.Shoot.C191_violated"
   ],
   "note": "Violated when the limits of tries and displacements are exhausted: the last configuration tried is returned, where the robot may not stand (C191_violated)."
  },
  {
   "property": "C192",
   "status": "partial",
   "theorems": [
    "Rbprm.JumpCone.C192_partial",
    "Rbprm.JumpCone.C192_when",
    "Rbprm.JumpCone.C192_refused",
    "Rbprm.JumpCone.C192_example",
    "Rbprm.JumpCone.C192_violated",
    "Rbprm.JumpCone.C192_frame_violated"
   ],
   "note": "Violated by a plane tangent to the cone, for which an aperture of a right angle is returned, and by the threshold on the section, which depends on the frame. Not covered: normals in the tolerance of 1e-6 around the degenerate positions but not on them."
  },
  {
   "property": "C193",
   "status": "partial",
   "theorems": [
    "Rbprm.Parabola.C193_draw",
    "Rbprm.Parabola.C193_partial",
    "Rbprm.Parabola.C193_angle_violated",
    "Rbprm.Parabola.C193_velocity_violated",
    "Rbprm.Parabola.C193_height_violated",
    "Rbprm.Parabola.C193_end_violated"
   ],
   "note": "Violated: nothing sets the interval of the angle, the velocities in the path are uninitialised, the height is checked up to the target only, and the end is on another line than the path."
  },
  {
   "property": "C194",
   "status": "partial",
   "theorems": [
    "Rbprm.Paths.C194_when",
    "Rbprm.Paths.C194_free",
    "Rbprm.Paths.C194_partial",
    "Rbprm.Paths.C194_symmetry",
    "Rbprm.Paths.C194_symmetry_violated",
    "Rbprm.Paths.C194_degenerate_violated"
   ],
   "note": "Violated: within the tolerance of the projector two configurations may be linked in one direction only, and configurations at distance 0 are linked by a path that does not reach the second."
  },
  {
   "property": "C195",
   "status": "partial",
   "theorems": [
    "Rbprm.JumpCone.section_half",
    "Rbprm.Parabola.C195_takeoff_partial",
    "Rbprm.Parabola.C195_landing_partial",
    "Rbprm.Parabola.C195_floor",
    "Rbprm.Parabola.C195_violated",
    "Rbprm.Parabola.C195_third_violated",
    "Rbprm.Parabola.C195_example"
   ],
   "note": "Violated: the test of the cones is disabled; on flat ground each jump found at the first angle is outside both cones for the friction of the steering method (1/2). Proved: the criterion with the half aperture of fiveth_constraint, for take-off and landing."
  },
  {
   "property": "C196",
   "status": "proved",
   "theorems": [
    "Rbprm.RRT.C196_edge",
    "Rbprm.RRT.C196_limbRRT",
    "Rbprm.RRT.C196_limbRRTFromPath",
    "Rbprm.RRT.C196_comRRTFromPath",
    "Rbprm.RRT.C196_comRRT"
   ],
   "note": "Replaces the contract of the planner in C151 by what the paths of the library guarantee. Contacts are prescribed values; constraints on the centre of mass and on effectors are tested at the time of the configuration. The projector is a function whose success means that the constraints hold."
  },
  {
   "property": "C197",
   "status": "partial",
   "theorems": [
    "Rbprm.Effector.C197_partial",
    "Rbprm.Effector.effectorTask_some",
    "Rbprm.Effector.C197_size_violated",
    "Rbprm.Effector.C197_shift_violated"
   ],
   "note": "Violated: when the effector moves by less than 3 cm (or no reference can be followed) the motion of comRRT is returned, with its tolerance of 5 cm and always with the extra degree of freedom; the constraint of the effector has an uninitialised default argument. Planners by the contract of C151, library of curves by that of C124."
  },
  {
   "property": "C198",
   "status": "proved",
   "theorems": [
    "Rbprm.RRT.C198_comRRT",
    "Rbprm.RRT.forward_clock",
    "Rbprm.Effector.C198_effectorRRT"
   ],
   "note": "For planners and optimisers that put together paths of TimeConstraintSteering whose time does not decrease (the first test of TimeConstraintPathValidation, C60) and forward parts of them; the distance is zero only between equal configurations. The clock is tied to the configurations wherever the path can be evaluated."
  },
  {
   "property": "C199",
   "status": "proved",
   "theorems": [
    "Rbprm.RRT.C199_edge",
    "Rbprm.RRT.C199_comRRT",
    "Rbprm.Effector.C199_effectorRRT"
   ],
   "note": "Derives the hypothesis of C198 from the model of TimeConstraintPathValidation with the valid part (C183), in both directions of validation; the discretised validation of hpp-core by its contract, the distance is zero only between equal configurations. Planners that also keep reversed paths are excluded by the hypothesis."
  },
  {
   "property": "C200",
   "status": "partial",
   "theorems": [
    "Rbprm.Profile.C200_lines_partial",
    "Rbprm.Profile.C200_measures",
    "Rbprm.Profile.C200_attempts",
    "Rbprm.Profile.C200_successes",
    "Rbprm.Profile.C200_reset_violated"
   ],
   "note": "Violated by reset_all, with which Interpolate begins: it resets the measures, not the counters (C200_reset_violated), so the report of a planning has the contacts of all plannings before. Counters are integers without overflow; the code that counts is compiled with PROFILE."
  }
 ]
}