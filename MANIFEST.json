{"claims": [
 {"property": "C01", "status": "proved", "theorems": ["Simu.Memory.C01_live_allocations_sound", "Simu.Memory.C01_size_overflow_disagreement"], "note": "under the no-size-overflow precondition; without it the second theorem exhibits an overlap"},
 {"property": "C02", "status": "proved", "theorems": ["Simu.Memory.C02_bytes_conserved"], "note": ""},
 {"property": "C03", "status": "proved", "theorems": ["Simu.Memory.C03_allocate_succeeds"], "note": ""},
 {"property": "C04", "status": "proved", "theorems": ["Simu.Algo.C04_booleanSort_partitions", "Simu.Algo.C04_split_position", "Simu.Algo.C04_clamp"], "note": ""},
 {"property": "C05", "status": "partial", "theorems": ["Simu.C05_contains", "Simu.C05_overlaps_partial", "Simu.C05_inverted_overlaps_disagreement", "Simu.C05_approx"], "note": "overlaps is exact for non-inverted intervals; for inverted ones the code still answers true, shown by the disagreement theorem"},
 {"property": "C06", "status": "proved", "theorems": ["Simu.BoundingBox.C06_eq_is_set_equality", "Simu.BoundingBox.C06_combined_is_least_upper_bound", "Simu.BoundingBox.C06_combined_laws"], "note": ""},
 {"property": "C07", "status": "proved", "theorems": ["Simu.BoundingBox.C07_contains", "Simu.BoundingBox.C07_overlaps", "Simu.BoundingBox.C07_overlaps_laws", "Simu.BoundingBox.C07_scaled"], "note": "exact arithmetic; the comparisons themselves hold over any linear order"},
 {"property": "C08", "status": "proved", "theorems": ["Simu.BoundingBox.C08_box_of_vertices_is_tightest", "Simu.BoundingBox.C08_collider_box_encloses_polygon"], "note": "an empty vertex range leaves the corners uninitialised (ub outcome)"},
 {"property": "C09", "status": "proved", "theorems": ["Simu.Mat.C09_storage_bijective", "Simu.Mat.C09_elements_determine", "Simu.Mat.C09_set_get", "Simu.Mat.C09_refines", "Simu.Mat.C09_scalar_division", "Simu.Mat.C09_constructors", "Simu.Mat.C09_ring_laws", "Simu.Mat.C09_transpose_laws", "Simu.Mat.C09_transpose_initialises", "Simu.Mat.C09_rows_round_trip", "Simu.Mat.C09_cols_round_trip", "Simu.Mat.C09_initializer_list"], "note": "All dimensions and entries, any commutative ring. Element type promotion is not modelled; float entries round."},
 {"property": "C10", "status": "proved", "theorems": ["Simu.C10_solver2", "Simu.C10_invert2"], "note": "Any field; exact arithmetic."},
 {"property": "C100", "status": "partial", "theorems": ["Simu.Memory.Pools.C100_histories_partial", "Simu.Memory.Pools.C100_reset", "Simu.Memory.Pools.C100_all_gone", "Simu.Memory.Pools.C100_no_leak_partial", "Simu.Memory.Pools.C100_base_disagreement", "Simu.Memory.Pools.C100_throw_disagreement"], "note": "False for pointers converted to a base class that does not begin the object, and for the memory of objects whose constructors throw (disagreements). Allocation by the system succeeds; arrays (whose makeUnique does not compile) are left out."},
 {"property": "C101", "status": "partial", "theorems": ["Simu.C101_functions", "Simu.C101_bodies", "Simu.C101_step_partial", "Simu.C101_steps_partial", "Simu.C101_inequalities_disagreement", "Simu.C101_bounce_disagreement"], "note": "Exact arithmetic. False of the code, and proved so, for contacts with restitution (absolute threshold of the bounce) and for inequalities of more than one dimension (absolute stopping difference); proved for everything else."},
 {"property": "C102", "status": "partial", "theorems": ["Simu.C102_laws_partial", "Simu.C102_stays", "Simu.C102_more_iterations", "Simu.C102_joint", "Simu.C102_motor", "Simu.C102_limits", "Simu.C102_inequality_partial", "Simu.C102_contact", "Simu.C102_inequality_damping_disagreement"], "note": "Exact arithmetic. Partial: the damping of inequality constraints has no effect on what the iterations settle at; motors of several rows need a diagonal effective mass (those of the library have one)."},
 {"property": "C103", "status": "partial", "theorems": ["Simu.C103_unique_partial", "Simu.C103_library", "Simu.C103_friction_disagreement", "Simu.C103_dominance_disagreement"], "note": "Exact arithmetic. Partial: false with friction and with dominance (disagreement theorems give islands with two settled states)."},
 {"property": "C104", "status": "partial", "theorems": ["Simu.C104_contracts_partial", "Simu.C104_rate_partial", "Simu.C104_velocities_partial", "Simu.C104_converges_partial", "Simu.C104_dominance_disagreement"], "note": "Exact arithmetic. Proved for all islands of joints without dominance. With dominance the iterations can diverge (C104_dominance_disagreement). Convergence of contacts, limits and motors with bounds is not covered."},
 {"property": "C105", "status": "proved", "theorems": ["Simu.C105_converges", "Simu.C105_last"], "note": "Exact arithmetic. The existence of a settled state is a hypothesis; islands without friction and dominance, inequalities undamped and of one row."},
 {"property": "C106", "status": "proved", "theorems": ["Simu.C106_step", "Simu.C106_stands", "Simu.C106_hinge"], "note": "Exact arithmetic; joints without bounds on the impulse and contacts; awake bodies with warm starting."},
 {"property": "C107", "status": "partial", "theorems": ["Simu.C107_step_partial", "Simu.C107_sleeps_partial", "Simu.C107_creep_disagreement"], "note": "Exact arithmetic. Proved for steps without warm starting; with warm starting, the default, it is false (witness evaluated over the rationals)."},
 {"property": "C108", "status": "proved", "theorems": ["Simu.Tumbler.C108_drum", "Simu.Tumbler.C108_closed", "Simu.Tumbler.C108_boxes", "Simu.Tumbler.C108_fills"], "note": "Exact arithmetic."},
 {"property": "C109", "status": "proved", "theorems": ["Simu.C109_step", "Simu.C109_gains", "Simu.C109_loses", "Simu.C109_turns", "Simu.C109_points", "Simu.C109_round", "Simu.C109_tumbler", "Simu.C109_goes_on"], "note": "Exact arithmetic."},
 {"property": "C11", "status": "proved", "theorems": ["Simu.C11_solverN", "Simu.C11_invert", "Simu.C11_original_of_singular_disagreement"], "note": "Real arithmetic with exact square roots. original() of an invalid solver reads uninitialised storage (disagreement theorem); the property is stated for valid solvers."},
 {"property": "C110", "status": "proved", "theorems": ["Simu.C110_pushed", "Simu.C110_pushes", "Simu.C110_set"], "note": "Exact arithmetic."},
 {"property": "C12", "status": "proved", "theorems": ["Simu.C12_lcp", "Simu.C12_refuses", "Simu.C12_wrong_outside_domain"], "note": "Any ordered field; exact arithmetic."},
 {"property": "C13", "status": "proved", "theorems": ["Simu.C13_terminates", "Simu.C13_result", "Simu.C13_lcp_residual", "Simu.C13_may_diverge"], "note": "Archimedean ordered field, exact arithmetic; projections acting on each unknown separately (clamps)."},
 {"property": "C14", "status": "proved", "theorems": ["Simu.C14_reverse", "Simu.C14_rotate", "Simu.C14_translate", "Simu.C14_degenerate", "Simu.C14_fan", "Simu.C14_rigid_rotation"], "note": "exact arithmetic over any ordered field; also shown equal to the area/centroid/moment of a triangle fan (parallel axis)"},
 {"property": "C15", "status": "proved", "theorems": ["Simu.C15_polygon", "Simu.C15_too_few", "Simu.C15_box"], "note": "exact arithmetic; box dimensions may be negative (area is then |w h|)"},
 {"property": "C16", "status": "proved", "theorems": ["Simu.C16_edges", "Simu.C16_empty", "Simu.C16_next", "Simu.C16_previous", "Simu.C16_inverse"], "note": "empty range is undefined behaviour"},
 {"property": "C17", "status": "proved", "theorems": ["Simu.C17_support", "Simu.C17_zero_direction", "Simu.C17_empty"], "note": "maximality over the inductively defined convex hull"},
 {"property": "C18", "status": "proved", "theorems": ["Simu.C18_closest", "Simu.C18_degenerate", "Simu.C18_weights"], "note": "exact arithmetic"},
 {"property": "C19", "status": "partial", "theorems": ["Simu.C19_triangle_partial", "Simu.C19_no_throw_partial", "Simu.C19_small_negative_throws", "Simu.C19_small_negative_wrong", "Simu.C19_repeated_vertex_wrong"], "note": "proved for pairwise distinct vertices with 2*area >= 0 or < -EPSILON; false otherwise (witnesses: tiny negative triangles throw or give a wrong point, repeated vertices give a wrong point)"},
 {"property": "C20", "status": "partial", "theorems": ["Simu.Gjk.C20_decides_partial", "Simu.Gjk.C20_polygons", "Simu.Gjk.C20_flat_disagreement"], "note": "Exact and terminating as soon as one geometry has three vertices not on a line; for two flat geometries false (disagreement). Exact arithmetic."},
 {"property": "C21", "status": "partial", "theorems": ["Simu.RTree.C21_contents_follow_operations_partial", "Simu.RTree.C21_exact_areas_are_finite", "Simu.RTree.C21_area_overflow_disagreement"], "note": "proved for any cost function with finite areas and any priority queue; a box whose area overflows makes insert undefined (disagreement theorem). Callbacks that throw are not covered."},
 {"property": "C22", "status": "proved", "theorems": ["Simu.RTree.C22_bounds_are_unions"], "note": "any cost function with finite areas"},
 {"property": "C23", "status": "proved", "theorems": ["Simu.RTree.C23_queries_are_exact", "Simu.RTree.C23_range_query_is_exact"], "note": "exact overlap test, arbitrary costs"},
 {"property": "C24", "status": "proved", "theorems": ["Simu.RTree.C24_pairs_reported_once"], "note": "exact overlap test, arbitrary costs and split decisions"},
 {"property": "C25", "status": "proved", "theorems": ["Simu.RTree.C25_insert_is_optimal"], "note": "exact arithmetic"},
 {"property": "C26", "status": "proved", "theorems": ["Simu.C26_rotation_wf", "Simu.C26_rotation_action", "Simu.C26_angles", "Simu.C26_compose", "Simu.C26_closed", "Simu.C26_group", "Simu.C26_inverse", "Simu.C26_rigid", "Simu.C26_mat3", "Simu.C26_mat3_mul", "Simu.C26_transformAround"], "note": "Over any field with lawful cos/sin (instance for the reals)."},
 {"property": "C27", "status": "proved", "theorems": ["Simu.C27_placement", "Simu.C27_inverse", "Simu.C27_centroid", "Simu.C27_advance", "Simu.C27_advance_add"], "note": "Over any field with lawful cos/sin (instance for the reals)."},
 {"property": "C28", "status": "proved", "theorems": ["Simu.C28_comm", "Simu.C28_assoc", "Simu.C28_identity", "Simu.C28_collection", "Simu.C28_history", "Simu.C28_failed_add_stays", "Simu.C28_failed_add_poisons"], "note": "Histories whose additions are of valid colliders; additions that throw break the property (last two theorems)."},
 {"property": "C29", "status": "partial", "theorems": ["Simu.C29_add_partial", "Simu.C29_remove_partial", "Simu.C29_add_disturbs", "Simu.C29_add_witness"], "note": "False as stated: refuted by C29_add_disturbs and C29_add_witness; exact conditions under which it holds are proved."},
 {"property": "C30", "status": "proved", "theorems": ["Simu.C30_gravity", "Simu.C30_linear", "Simu.C30_untouched", "Simu.C30_superposition"], "note": ""},
 {"property": "C31", "status": "proved", "theorems": ["Simu.C31_symmetric", "Simu.C31_priority", "Simu.C31_range", "Simu.C31_policies"], "note": ""},
 {"property": "C32", "status": "proved", "theorems": ["Simu.C32_opposite", "Simu.C32_linear_momentum", "Simu.C32_solved", "Simu.C32_limits_solved", "Simu.C32_structural", "Simu.C32_constructible"], "note": "All library two-body functions have opposite linear parts; conservation for any history of solves of the equality and limits solvers; structural bodies keep velocity and position; two structural bodies are refused."},
 {"property": "C33", "status": "proved", "theorems": ["Simu.C33_velocity_change_equality", "Simu.C33_velocity_change_inequality", "Simu.C33_inequality_nonneg", "Simu.C33_motor", "Simu.C33_limits_nonneg"], "note": "Any list of warm starts, solves and foreign velocity changes."},
 {"property": "C34", "status": "proved", "theorems": ["Simu.C34_solved", "Simu.C34_bias", "Simu.C34_valid", "Simu.C34_library_valid", "Simu.C34_no_throw", "Simu.C34_rotation_position"], "note": "Any dimension; the effective mass is invertible iff no multiplier acts trivially; library functions always qualify with one movable body."},
 {"property": "C35", "status": "proved", "theorems": ["Simu.C35_contacts_push", "Simu.C35_coefficients", "Simu.C35_friction_cone", "Simu.C35_coulomb"], "note": "invariant over all reachable contacts: multipliers non-negative; friction within the cone of the normal multiplier at hand; Coulomb alternative for the friction step"},
 {"property": "C36", "status": "proved", "theorems": ["Simu.C36_restitution", "Simu.C36_energy", "Simu.C36_energy_single", "Simu.C36_two_contacts_gain"], "note": "restitution and complementarity after each solve; no energy created without restitution (one or two points, with friction) nor by a frictionless single point with restitution in [0,1]; a two-point witness shows the limit of the claim"},
 {"property": "C37", "status": "proved", "theorems": ["Simu.Island.C37_once", "Simu.Island.C37_fixed", "Simu.Island.C37_bodies", "Simu.Island.C37_active", "Simu.Island.C37_inactive", "Simu.Island.C37_connected", "Simu.Island.C37_shared", "Simu.Island.C37_free_flight", "Simu.Island.C37_frame", "Simu.Island.C37_ends", "Simu.Island.C37_completes", "Simu.Island.C37_limits_disagreement", "Simu.C37_library"], "note": "For every graph, order and behaviour of constraints, when each constraint answers the same each time it is asked if it is active. Constraints with limits may change their answer after a body moved: then a body can be integrated twice (C37_limits_disagreement)."},
 {"property": "C38", "status": "partial", "theorems": ["Simu.Sleep.C38_delay_partial", "Simu.Sleep.C38_falls_asleep", "Simu.Sleep.C38_spin_disagreement", "Simu.Island.C38_wakes", "Simu.Island.C38_never_sleeps", "Simu.Island.C38_stays_asleep_partial", "Simu.Island.C38_world_asleep", "Simu.Island.C38_flag_disagreement", "Simu.Island.C38_flag_witness", "Simu.Island.C38_asleep_moves_disagreement", "Simu.Island.C38_inactive_disagreement"], "note": "False of the code in three ways (disagreement theorems); what holds is proved: waking of islands, exact origin of wake-ups, the delay with signed angular velocity."},
 {"property": "C39", "status": "partial", "theorems": ["Simu.World.C39_no_dangling", "Simu.World.C39_defined_partial", "Simu.World.C39_dead_gone", "Simu.World.C39_kill", "Simu.World.C39_destructor_disagreement", "Simu.World.C39_factory_disagreement"], "note": "Proved over all histories of makeBody, makeConstraint, makeForceField, add/removeCollider, kill, step (also throwing), clear. setContactFactory in a world with contacts leaves dangling pointers (negation proved), so histories exclude it when bodies list contacts. As Body destructor is written, destroying a body with colliders is undefined; the theorem is about the bodies whose destructor is defined, with the intended destructor as a parameter."},
 {"property": "C40", "status": "proved", "theorems": ["Simu.World.C40_contacts"], "note": "The pairs reported by the tree are any list that reports every overlapping pair in some order (Reports); that the tree does so is the subject of the RTree claims."},
 {"property": "C41", "status": "proved", "theorems": ["Simu.Camera.C41_positive", "Simu.Camera.C41_inverse", "Simu.Camera.C41_view", "Simu.Camera.C41_operations"], "note": "All histories of camera operations, exact arithmetic."},
 {"property": "C42", "status": "partial", "theorems": ["Simu.Scene.C42_speed", "Simu.Scene.C42_frame", "Simu.Scene.C42_paused", "Simu.Scene.C42_advance_partial", "Simu.Scene.C42_keys", "Simu.Scene.C42_single_step_disagreement", "Simu.Scene.C42_repeat_disagreement", "Simu.Scene.C42_detached"], "note": "Everything but the last clause is proved for all histories; single-stepping keeps the pause flag only if the world step does not throw (C42_advance_partial), otherwise the scene stays resumed (C42_single_step_disagreement)."},
 {"property": "C43", "status": "proved", "theorems": ["Simu.TimeEntry.C43_statistics", "Simu.TimeEntry.C43_reset"], "note": "All histories of timers."},
 {"property": "C44", "status": "partial", "theorems": ["Simu.GlRenderer.C44_drawn_partial", "Simu.GlRenderer.C44_accepts", "Simu.GlRenderer.C44_overflow_disagreement"], "note": "Proved for polygons of at most 64511 vertices; false when the batch reaches 65536 vertices (16 bit indices)."},
 {"property": "C45", "status": "partial", "theorems": ["Simu.C45_destroy_partial"], "note": "False: destruction is undefined exactly when the body owns a collider."},
 {"property": "C46", "status": "proved", "theorems": ["Simu.C46_angular_momentum"], "note": "Exact change for hinge and weld when anchors differ."},
 {"property": "C47", "status": "proved", "theorems": ["Simu.C47_rotation", "Simu.C47_hinge", "Simu.C47_distance", "Simu.C47_composite", "Simu.C47_weld", "Simu.C47_mouse"], "note": "HasDerivAt over the reals."},
 {"property": "C48", "status": "partial", "theorems": ["Simu.C48_active", "Simu.C48_solved", "Simu.C48_distance_limits_partial", "Simu.C48_distance_active", "Simu.C48_minimum_only_disagreement", "Simu.C48_coincident_throws", "Simu.C48_setting", "Simu.C48_refused_disagreement"], "note": "Everything is proved except that a distance constraint with only a minimum is accepted: the code refuses it, proved as C48_minimum_only_disagreement."},
 {"property": "C49", "status": "proved", "theorems": ["Simu.C49_rotation_motor", "Simu.C49_translation_motor", "Simu.C49_acceleration", "Simu.C49_target_force", "Simu.C49_accelerates"], "note": "Any history of warm starts, solves and foreign impulses before the last solve."},
 {"property": "C50", "status": "proved", "theorems": ["Simu.C50_composite", "Simu.C50_weld_solved"], "note": "Two parts; longer compositions are nested."},
 {"property": "C51", "status": "proved", "theorems": ["Simu.C51_contact_impulse", "Simu.C51_momentum"], "note": "any interleaving of warm start, iterations and other constraints"},
 {"property": "C52", "status": "proved", "theorems": ["Simu.C52_manifold", "Simu.C52_reference", "Simu.C52_zero_tolerance"], "note": "for any result of the penetration query; also: zero tolerance and zero penetration throws"},
 {"property": "C53", "status": "proved", "theorems": ["Simu.C53_position"], "note": "solvePositions of one and two contacts; first order separation"},
 {"property": "C54", "status": "partial", "theorems": ["Simu.C54_equality", "Simu.C54_inequality_partial", "Simu.C54_limits", "Simu.C54_inequalities_disagreement"], "note": "Inequalities of one row, the only dimension in which the library uses them; false for two rows (C54_inequalities_disagreement). Limits for one row, the only dimension in which LimitsSolver compiles."},
 {"property": "C55", "status": "proved", "theorems": ["Simu.C55_persist", "Simu.C55_active", "Simu.C55_info", "Simu.C55_info_disagreement"], "note": "penetration query arbitrary; the points reported as those of the reference body are those of the second body"},
 {"property": "C56", "status": "partial", "theorems": ["Simu.Island.C56_interrupted_disagreement", "Simu.Island.C56_hangs", "Simu.Island.C56_next_step_partial"], "note": "False of the code: after an exception during solving, bodies keep their index and the next step never returns. Proved that steps end otherwise."},
 {"property": "C57", "status": "partial", "theorems": ["Simu.Scene.C57_scroll_partial", "Simu.Scene.C57_scroll_disagreement"], "note": "False: the amount scrolled multiplies the zoom factor; exact effect proved."},
 {"property": "C58", "status": "proved", "theorems": ["Simu.Camera.C58_window"], "note": "All cameras, windows and pixels, exact arithmetic."},
 {"property": "C59", "status": "proved", "theorems": ["Simu.Scene.C59_pan", "Simu.Scene.C59_pixel"], "note": "Exact arithmetic; the square root is any function satisfying its defining equation."},
 {"property": "C60", "status": "partial", "theorems": ["Simu.PauseButton.C60_button_partial", "Simu.PauseButton.C60_button_disagreement"], "note": "False after the pause key or a change of scene; works as long as only the button is used."},
 {"property": "C61", "status": "proved", "theorems": ["Simu.Scene.C61_tool", "Simu.Scene.C61_use"], "note": "All histories."},
 {"property": "C62", "status": "partial", "theorems": ["Simu.Renderer.C62_circle", "Simu.Renderer.C62_point_partial", "Simu.Renderer.C62_point_disagreement"], "note": "False for a precision of 256 or more (the loop counter is a Uint8 and drawPoint never ends); proved up to 255."},
 {"property": "C63", "status": "partial", "theorems": ["Simu.ScopedTimer.C63_timer_partial", "Simu.ScopedTimer.C63_moved_disagreement"], "note": "False for moved timers; proved for the others."},
 {"property": "C64", "status": "partial", "theorems": ["Simu.Renderer.C64_line_partial", "Simu.Renderer.C64_width_partial", "Simu.Renderer.C64_degenerate", "Simu.Renderer.C64_orientation_disagreement"], "note": "The rectangle is proved; its vertices are always clockwise although drawPolygon documents positive orientation. Rounded and triangular tips are not implemented by the code."},
 {"property": "C65", "status": "partial", "theorems": ["Simu.Renderer.C65_contour_partial", "Simu.Renderer.C65_contour_disagreement"], "note": "False: the width is contourWidth*(1+cos) where cos is that of the angle between adjacent normals; right only at right angles. Contours other than outside are not implemented by the code."},
 {"property": "C66", "status": "partial", "theorems": ["Simu.World.C66_grab_partial", "Simu.World.C66_press", "Simu.World.C66_dangling_disagreement"], "note": "Proved for all histories in which the held body and constraint are not killed and the world is not cleared while a body is held; otherwise the tool keeps a dangling pointer (negation proved)."},
 {"property": "C67", "status": "partial", "theorems": ["Simu.World.C67_once", "Simu.World.C67_told_partial", "Simu.World.C67_contact_disagreement", "Simu.World.C67_clear_disagreement"], "note": "Holds for bodies, constraints and force fields removed by a step; false for contacts, which are never told, and for clear, which tells nobody (negations proved)."},
 {"property": "C68", "status": "partial", "theorems": ["Simu.World.C68_recovers_partial", "Simu.World.C68_structural_disagreement"], "note": "Holds when a preStep or the solver throws; false when two structural bodies overlap: the throw leaves the collider tree broken (negation proved)."},
 {"property": "C69", "status": "partial", "theorems": ["Simu.Gjk.C69_touches_partial", "Simu.Gjk.C69_wrong_disagreement", "Simu.Gjk.C69_throw_disagreement", "Simu.Gjk.C69_endless_disagreement"], "note": "The returned vector makes the geometries touch; it is not always the shortest, the call may throw and may never return (disagreements, each with a concrete pair of convex polygons)."},
 {"property": "C70", "status": "partial", "theorems": ["Simu.Gjk.C70_penetration_partial", "Simu.Gjk.C70_ends_partial", "Simu.Gjk.C70_touching_disagreement", "Simu.Gjk.C70_separated"], "note": "Proved for every pair whose interiors overlap, and for polygons that touch unless the call throws (disagreement). Exact arithmetic."},
 {"property": "C71", "status": "proved", "theorems": ["Simu.C71_geometry", "Simu.C71_convex", "Simu.C71_polygon", "Simu.C71_mass", "Simu.C71_history"], "note": "Exact arithmetic (ordered field); float rounding not modelled."},
 {"property": "C72", "status": "proved", "theorems": ["Simu.Island.C72_group", "Simu.C72_library", "Simu.C72_kinds"], "note": "Exact arithmetic. Example in Props/LibrarySound: five bodies with a hinge, a weld, a mouse and a contact."},
 {"property": "C73", "status": "proved", "theorems": ["Simu.Island.C73_completes", "Simu.C73_library", "Simu.C73_effective", "Simu.C73_contact"], "note": "Exact arithmetic with an exact std::sqrt. Distance and inequality constraints are not among the kinds covered (they can be singular, e.g. with coincident anchors)."},
 {"property": "C74", "status": "proved", "theorems": ["Simu.C74_point", "Simu.C74_grab", "Simu.C74_accepted", "Simu.C74_impulse", "Simu.C74_velocity", "Simu.C74_towards", "Simu.C74_positions"], "note": "Exact arithmetic."},
 {"property": "C75", "status": "proved", "theorems": ["Simu.Island.C75_group", "Simu.C75_library", "Simu.C75_kinds", "Simu.C75_contact", "Simu.C75_step"], "note": "Energy of a group never grows when solved without warm starting. Warm starting, friction and restitution are excluded by the statement. Exact arithmetic, exact square roots."},
 {"property": "C76", "status": "proved", "theorems": ["Simu.C76_step", "Simu.C76_keeps", "Simu.C76_parabola", "Simu.C76_fall", "Simu.C76_for_ever"], "note": "Exact arithmetic. Between and during the steps everything outside the group may change; the group itself is only changed by the steps. C76_step holds for any fields covering the group."},
 {"property": "C77", "status": "proved", "theorems": ["Simu.C77_step", "Simu.C77_flight", "Simu.C77_for_ever"], "note": "Exact arithmetic. Passive constraints as in C75; the group is isolated as in C76."},
 {"property": "C78", "status": "proved", "theorems": ["Simu.Island.C78_group", "Simu.C78_library", "Simu.C78_step", "Simu.C78_still", "Simu.C78_sleeps", "Simu.C78_for_ever", "Simu.C78_joints", "Simu.C78_distance", "Simu.C78_contact", "Simu.C78_new"], "note": "Exact real arithmetic, exact std::sqrt. Contacts are those of the step: their update before solving is modelled elsewhere (C40, C43). Systems of several inequalities that hold strictly are not included: their position solve may move the bodies."},
 {"property": "C79", "status": "proved", "theorems": ["Simu.Island.C79_group", "Simu.C79_functions", "Simu.C79_step", "Simu.C79_steps", "Simu.Island.C79_sleep_disagreement"], "note": "Two-world simulation: C79_group for solveIslands with any constraints, C79_step for a whole step with the constraints of the library, C79_steps for any number of steps (between which constraints may be updated, come and go). The group must be awake: C79_sleep_disagreement shows that a sleeping group is woken by an awake body it has nothing to do with. Creation and geometric update of contacts happen between the modelled steps."},
 {"property": "C80", "status": "proved", "theorems": ["Simu.C80_functions", "Simu.C80_penetration", "Simu.C80_contacts", "Simu.C80_step", "Simu.C80_steps"], "note": "Exact arithmetic: with float the results round differently far from the origin. The group is awake; between the steps it is left alone, apart from contacts that are made or updated and joints that are given alike."},
 {"property": "C81", "status": "proved", "theorems": ["Simu.C81_step", "Simu.C81_steps"], "note": "Exact arithmetic. The mouse and motors hold a velocity relative to the world and are excluded by the statement, as are bodies nothing can move. The bodies are awake in both worlds: falling asleep depends on the velocity in the world."},
 {"property": "C82", "status": "proved", "theorems": ["Simu.App.C82_current", "Simu.App.C82_safe", "Simu.App.C82_others", "Simu.App.C82_frame", "Simu.App.C82_view"], "note": "For all histories. The window system is represented by the events it sends and by the size of the window; drawing, the profiler window and mouse buttons/moves (which go to the current scene like scrolling) are not represented. The view theorem excludes histories in which the init of a scene throws, since changeScene then does not reach the resizing. Exact arithmetic."},
 {"property": "C83", "status": "partial", "theorems": ["Simu.App.C83_returned_partial", "Simu.App.C83_always_restarts", "Simu.App.C83_disagreement"], "note": "Speed, pause, tools, place and zoom of the view and settings are kept (proved for all histories). The world is not: leaving a scene resets its app pointer, so the test that should spare initialised scenes always fails and a scene is restarted each time it is selected (proved for all histories, with a concrete case)."},
 {"property": "C84", "status": "partial", "theorems": ["Simu.App.C84_applied_partial", "Simu.App.C84_hidden", "Simu.App.C84_overwrites", "Simu.App.C84_opening_disagreement", "Simu.App.C84_negative_disagreement"], "note": "What is entered (in range) is what the current scene uses, and hidden windows change nothing. But the window starts from shared static values instead of the settings in force: opening it replaces the settings of the scene, including the sleeping ones that it does not show; numbers typed in outside of the range wrap around."},
 {"property": "C85", "status": "partial", "theorems": ["Simu.C85_normal", "Simu.C85_found_partial", "Simu.C85_none", "Simu.C85_missed_disagreement"], "note": "Exact arithmetic and exact square roots. For all strictly convex polygons the update succeeds within a bounded number of iterations, the unit normal is that of the shortest separating translation and the depths are bounded by it; a contact exists whenever the reference polygon has no obtuse angle or the facing edges are parallel. For reference polygons with obtuse angles the contact may be missed: a spike half a unit deep in a trapezoid gets none (C85_missed_disagreement)."},
 {"property": "C86", "status": "partial", "theorems": ["Simu.Assembly.C86_creation", "Simu.Assembly.C86_dominance", "Simu.Assembly.C86_present_partial", "Simu.Assembly.C86_disagreement"], "note": "Exact arithmetic. Impulses act on the masses the bodies had when the constraint was made (C86_creation, all histories), which are the present ones if the colliders of the two bodies did not change since (C86_present_partial). They are stale after addCollider or removeCollider: the momentum of two joined bodies changes (C86_disagreement)."},
 {"property": "C87", "status": "proved", "theorems": ["Simu.Body.C87_follow", "Simu.Body.C87_step", "Simu.Body.C87_together", "Simu.Body.C87_quiet", "Simu.Body.C87_contacts"], "note": "Exact arithmetic (the drift of repeatedly multiplied rotations in floats is not modelled)."},
 {"property": "C88", "status": "partial", "theorems": ["Simu.Spawner.C88_box", "Simu.Spawner.C88_uses", "Simu.Spawner.C88_window_partial", "Simu.Spawner.C88_edit", "Simu.Spawner.C88_same_box", "Simu.Spawner.C88_disagreement"], "note": "Exact arithmetic. False for settings in an untouched frame: negative angles turn by half a turn and fractions of a degree are lost (disagreement); proved for whole degrees from 0 to 359, and for all whole degrees up to half turns, which leave the box the same."},
 {"property": "C89", "status": "proved", "theorems": ["Simu.Demos.C89_stacks", "Simu.Demos.C89_pyramid", "Simu.Demos.C89_tower", "Simu.Demos.C89_pendulum", "Simu.Demos.C89_fixed", "Simu.Demos.C89_pushed"], "note": "Exact arithmetic. The scene Tumbler, which makes its boxes while it runs, is not covered."},
 {"property": "C90", "status": "proved", "theorems": ["Simu.World.C90_runs", "Simu.World.C90_solver"], "note": "Runs of the world model in which the list of contacts is permuted arbitrarily before each call. preStep/postStep are those of the library, which change only the contact itself; contact classes of users with other side effects are outside."},
 {"property": "C91", "status": "partial", "theorems": ["Simu.World.C91_defined_partial", "Simu.World.C91_contacts", "Simu.World.C91_contacts_before", "Simu.World.C91_tree", "Simu.World.C91_touching"], "note": "Model of World and RTree together. Allowed histories: no two structural bodies meet (C40/C68 disagreement), bodies with colliders are destroyed only with the repaired destructor (C39 disagreement), areas are finite."},
 {"property": "C92", "status": "partial", "theorems": ["Simu.Visible.C92_polygon", "Simu.Visible.C92_body", "Simu.Visible.C92_step", "Simu.Visible.C92_refused_disagreement", "Simu.Visible.C92_screen", "Simu.Visible.C92_line", "Simu.Visible.C92_distance_partial", "Simu.Visible.C92_distance_disagreement", "Simu.Visible.C92_mouse", "Simu.Visible.C92_contact_partial", "Simu.Visible.C92_contact_disagreement"], "note": "Exact arithmetic. Bodies: proved for all lives in which the colliders asked for are convex and have a density; false after a collider without density was refused (it stays in the body and every later step throws). Distance constraints: false when the anchors meet (drawLine throws). Contacts: false if lines have no width."},
 {"property": "C93", "status": "partial", "theorems": ["Simu.App.C93_speed", "Simu.App.C93_buttons", "Simu.App.C93_clicks", "Simu.App.C93_refines", "Simu.App.C93_pause_partial", "Simu.App.C93_pause_disagreement"], "note": "Exact arithmetic. \"-\", \"+\" and restart: proved for all histories. The pause button: exactly when its label fits, which is so as long as the P key is not used, no other scene is selected and no single step fails; false otherwise."},
 {"property": "C94", "status": "partial", "theorems": ["Simu.C94_functions", "Simu.C94_bodies", "Simu.C94_step_partial", "Simu.C94_steps_partial", "Simu.C94_inequalities_disagreement", "Simu.C94_mouse_disagreement"], "note": "Exact arithmetic. Missing: inequality constraints of more than one dimension and new mouse constraints, for which the claim is false (disagreement theorems)."},
 {"property": "C95", "status": "partial", "theorems": ["Simu.RTreeHeap.C95_histories_partial", "Simu.RTreeHeap.C95_no_leak", "Simu.RTreeHeap.C95_erase", "Simu.RTreeHeap.C95_drain", "Simu.RTreeHeap.C95_erase_loop_partial", "Simu.RTreeHeap.C95_move_disagreement", "Simu.RTreeHeap.C95_erase_loop_disagreement"], "note": "For arbitrary allocators, tie-breaks and arithmetic with finite areas. False for moved trees and for emptying a tree by it = erase(it) (disagreements). Allocations succeed, callbacks do not throw."},
 {"property": "C96", "status": "proved", "theorems": ["Simu.C96_functions", "Simu.C96_bodies", "Simu.C96_new", "Simu.C96_distance", "Simu.C96_calls", "Simu.C96_step", "Simu.C96_steps", "Simu.C96_order"], "note": "Exact arithmetic. Joints between two different bodies (hinge, weld, rotation, distance, with limits, inequalities, tuples); constraints on one body have no order and contacts take theirs from the tree."},
 {"property": "C97", "status": "partial", "theorems": ["Simu.World.C97_calls_partial", "Simu.World.C97_step", "Simu.World.C97_history_partial", "Simu.World.C97_wakes", "Simu.World.C97_forces", "Simu.World.C97_disabled", "Simu.World.C97_force_disagreement", "Simu.World.C97_last_collider_disagreement", "Simu.World.C97_clock_disagreement"], "note": "Proved for constraints, contacts, colliders, new force fields and settings. False for force fields that are killed and for the last collider of a body, and a woken body does not have to rest for the delay again before it sleeps (three disagreement theorems). Exact arithmetic."},
 {"property": "C98", "status": "partial", "theorems": ["Simu.C98_comparisons", "Simu.C98_valid", "Simu.C98_overlaps", "Simu.C98_never_misses", "Simu.C98_overlaps_partial", "Simu.C98_union_partial", "Simu.C98_contains_partial", "Simu.C98_finite", "Simu.RTree.C98_region_partial", "Simu.C98_half_plane_disagreement", "Simu.C98_nan_disagreement", "Simu.C98_union_disagreement", "Simu.RTree.C98_region_disagreement"], "note": "Exact characterisations for all bounds. The set meaning is proved for sides bounded on both ends or on none, and (union, containment) for all boxes without NaN; it is false for sides bounded on one end and for NaN (disagreement theorems). Floats are exact here, with infinities and NaN but no rounding or overflow."},
 {"property": "C99", "status": "partial", "theorems": ["Simu.Graphics.C99_life", "Simu.Graphics.C99_lives", "Simu.Graphics.C99_reports", "Simu.Graphics.C99_renderer_partial", "Simu.Graphics.C99_failure_partial", "Simu.Graphics.C99_shaders_disagreement", "Simu.Graphics.C99_failure_disagreement", "Simu.Graphics.C99_retry_disagreement", "Simu.Graphics.C99_two_disagreement"], "note": "Lives of applications with a working driver are proved in full; shaders and failing constructors leak, and two applications at a time have undefined behaviour (disagreements). The objects of ImGui are not modelled."}
]}
