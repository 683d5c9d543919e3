STATUS = {
"C01": ("proved", "Every history of calls, interleaved with arbitrary client mutations of the obstacles."),
"C02": ("proved", "With aggregation off the list is the snapshot in name order; it only changes in update() or by assigning through operator[]."),
"C03": ("partial", "Name resolution exactly as stated; C03_negation: in aggregated mode a removed obstacle stays reachable until the next update(); C03_after_update: right after update() it does hold."),
"C04": ("proved", "update() on any world; shape covers every field except the reference position."),
"C05": ("proved", "Every list of obstacles in an acyclic heap."),
"C06": ("proved", "Placement by connected components (also with duplicated pointers), and the statement for lists without duplicates."),
"C07": ("proved", "No undefined behaviour, no exception; result closed so that update can be repeated."),
"C08": ("proved", "add_primitive, the constructor from a list, order independence, aggregates built by update."),
"C09": ("proved", "Histories of one aggregate over the reals and aggregates built by update for obstacles that do not share sub-obstacles."),
"C10": ("partial", "False: C10_negation exhibits an update, a separation and a second update after which the reference point is still the old mean and lies outside the obstacle. Proved: obstacles that never met anything keep their reference point."),
"C11": ("partial", "False: aggregates always carry zero velocity, so the motion of merged obstacles is ignored (C11_negation, C11_negation_velocity, C11_negation_modulation)."),
"C12": ("proved", "update after update: all objects unchanged, list entries equal as objects; aggregates are fresh copies."),
"C13": ("proved", "linspace over the reals; throws for num < 2."),
"C14": ("proved", "gridspace over the reals; throws when one count is < 2."),
"C15": ("proved", "Both round trips over the reals."),
"C16": ("partial", "Holds when some column has an angle >= the query and there is at least one column; C16_negation: otherwise the returned index is out of range; C16_empty: on an empty matrix the remainder is by zero."),
"C17": ("proved", "Permutation and sortedness."),
"C18": ("proved", "rand_float as an affine function of rand()/RAND_MAX in [0,1]."),
"C19": ("proved", "Poses with unit orientation; includes the aliased p *= p."),
"C20": ("partial", "Invariant over all histories of constructors/setters/composition/inverse when constructor arguments are non-zero and have norm < 1.0001; C20_negation: a constructor argument of norm >= 1.0001 (e.g. 2) is never normalised (and the pose then is not an isometry)."),
"C21": ("proved", "Inverse, double inverse, inverse of a product, isometry."),
"C22": ("proved", "Exact level function over the reals and its classification."),
"C23": ("proved", "Invariance under a common rigid motion."),
"C24": ("partial", "Monotone for lengths above the 1e-4 guard; C24_negation: at the guard the distance jumps up."),
"C25": ("partial", "Unit length and outward for all even-power curvatures; parallel to the gradient for curvature 1 or equal half lengths; C25_negation: not parallel for curvature 2 with different lengths."),
"C26": ("partial", "In the plane, for rotations about z and curvature 1; two negations: z coordinate ignored, curvature ignored."),
"C27": ("partial", "Lines that are not vertical in the obstacle frame (over the reals). C27_negation(_vertical): over ideal doubles every line parallel to the y axis of the obstacle frame is reported as missing the obstacle."),
"C28": ("proved", "All samples on the boundary; first and last sample coincide."),
"C29": ("partial", "Always defined; no false positive; detects inclusion of centres (C29_detects_centres) and every overlap deeper than pi/99 of the larger half length of the other ellipse (C29_deep_partial); C29_negation: overlapping discs not detected."),
"C31": ("partial", "Positivity/monotonicity parts; C31_negation: wrong for spheres."),
"C32": ("proved", "Homogeneity and growth along rays."),
"C33": ("proved", "Over the reals, all lists, critical distances and powers."),
"C34": ("proved", "All distances and positive reactivity; limit at infinity."),
"C35": ("partial", "Columns always mutually orthogonal, first column the normal; orthonormal when the normal is horizontal or exactly vertical. C35_negation: the tangent is not normalised, so in general the basis is not orthonormal."),
"C36": ("partial", "Reference direction scaled by 1-1/d and invertibility in all regular positions, limit far away; tangents in the plane of the obstacle or for a centred ball. C36_negation: false in space for a shifted reference point."),
"C37": ("partial", "In the plane of the obstacle, or a ball with centred reference, for exact normals. C37_negation: false in space; C37_negation_curvature: false for curvature 2 with different lengths."),
"C38": ("partial", "For the velocity M(x)v, obstacles with exact normals (curvature 1 or equal lengths), planar motion or centred ball; all time, all continuous desired velocities. C38_output_partial: the same for the result of modulate_velocity outside its small-angle branch. C38_negation: false for curvature 2 with different half lengths, where the agent slides along the wrong surface into the obstacle. C38_negation_output: false for the velocity that modulate_velocity returns even around a ball, because the small-angle branch adds a positive multiple of the desired velocity; an agent that grazes the ball spirals through its surface."),
"C39": ("proved", "Obstacle of any kind, planar velocity: exact outside the small-angle branch, relative error at most 1e-8 inside it."),
"C40": ("proved", "For every scalar type, including the converse (in sight: same result as without is_local)."),
"C41": ("proved", "For every scalar type with a NaN test, in particular doubles."),
"C42": ("proved", "Zero beyond the threshold, otherwise 2/d*(x-ref); points outward; decreasing along rays; modulate_velocity adds the sum over all obstacles after the modulation (C42_added)."),
"C43": ("proved", "Static obstacles of any kind, planar velocity; factor 2 for centred balls; relative error at most 1e-8 from the small-angle branch."),
"C44": ("partial", "Relative velocity is agent velocity minus the weighted sum of surface velocities, exact when the normals are horizontal; Galilean form of the whole computation. C44_negation: in space the non-orthonormal basis distorts the obstacle velocity. C44_hull: for hulls the velocity is multiplied by the squared length of a chord of the surface, whatever the hull is; so the claim is false for every hull whose chord is not of length 1."),
"C45": ("partial", "C45_focus_partial: one focused obstacle in the plane. C45_negation_vertical / C45_negation: false for vertical velocities; C45_negation_small_angle: false in the small-angle branch."),
"C46": ("proved", "All permutations, all options, all obstacle kinds; over the reals, well-founded aggregates."),
"C47": ("partial", "Frame condition and unchanged when missed: every scalar type. Midpoint of the chord and inside the obstacle: over the reals, heading not parallel to the y axis of the obstacle frame (there the code divides by zero: C47_negation_vertical)."),
"C61": ("proved", "Every scalar type; C61_uninitialised shows that the reference position must be initialised."),
"C48": ("partial", "All obstacle kinds, any number, all options, curvature exponent in z different from 1/2. C48_negation_half: for exponent 1/2 the code computes pow(0,0)=1 and the result leaves the plane."),
"C49": ("partial", "All histories with at least one pose/velocity setter. C49_negation: a freshly constructed agent has the unit ball as envelope, because the constructors do not call update_envelope."),
"C50": ("partial", "C50_negation / C50_ignored: set_safety_margin never changes the envelope. C50_next_setter_partial: it takes effect with the next setter, for all histories."),
"C51": ("partial", "C51_negation_copy: every setter, transformed() and local modulation on a copy dereference null; C51_negation(_shared): assignment shares the envelope. C51_copy_partial: what works on copies."),
"C52": ("partial", "First half: all ellipsoids, every scalar type. Second half: obstacles rotated about z; C52_near_partial: a converse up to 3.2 percent of the half length. C52_negation: false for a tilted rod."),
"C53": ("proved", "All obstacle kinds, every scalar type, whenever the function returns; it always returns on ellipsoids."),
"C30": ("partial", "C30_negation: aggregate.is_intersecting(ellipsoid) is always false while the converse may be true; C30_negation_ellipsoids: not symmetric between ellipsoids either. C30_exact says exactly when the answer is yes, for all kinds and nestings; C30_symmetric_partial and C30_centres_partial are the symmetric cases."),
"C54": ("partial", "C54_negation: 0.95*min_radius occurs for every resolution >= 3. C54_history_partial: at least (1-19^-n)*min_radius after n computations, all primitives and histories."),
"C55": ("partial", "C55_negation: computing twice differs from computing once. C55_contraction_partial / C55_history_partial: everything but the radii is history independent, and radii differ by at most D/19^n after n computations."),
"C56": ("partial", "C56_negation: out-of-range access for every point straight in the negative x direction of the reference point, for all unrotated ellipsoids and all resolutions. C56_exact: exactly when. C56_defined_partial: defined for all points with angle at most pi-0.0002."),
"C57": ("proved", "Both kinds; C57_computed needs no assumption on the surface. The centre itself is excluded for inside hulls (division by zero, not representable over the reals)."),
"C58": ("proved", "All hulls with at least one surface point; aggregates, other kinds."),
"C59": ("partial", "C59_negation: constructors that get a name only leave the reference position uninitialised. C59_constructors_partial, C59_aggregate_partial: all others."),
"C60": ("partial", "C60_negation: the margin has no influence on hulls and aggregates. C60_ellipsoid_partial: strictly decreasing for ellipsoids."),
"C62": ("proved", "All lists of intersection points, over the reals."),
"C63": ("proved", "Every heap, nesting and scalar type."),
"C64": ("proved", "Over the reals; rays parallel to the y axis of an ellipse and reference points exactly on a boundary excluded (see C27)."),
"C65": ("proved", "Unit ball, all resolutions and histories."),
"C66": ("proved", "Ideal doubles (infinities and NaN, no rounding, one zero): the run equals the run over the reals; with planar modulation the heading must not be parallel to the y axis of an obstacle frame (C27_negation)."),
"C67": ("proved", "Ideal doubles; other obstacles arbitrary."),
"C68": ("partial", "Planar situation or reference point in the direction of the normal (as C37), real arithmetic; step bound 2k*t*|v| < l with l the smallest half length; C68_negation_long_steps shows that a bound is needed; C68_negation_curvature: for curvature 2 with different half lengths no step bound suffices."),
"C69": ("proved", "One static ellipsoid with unit orientation about z and equal integer curvatures, agent and target in the plane, real arithmetic, short steps; with repulsion strictly outside for ever."),
"C70": ("partial", "False for the code: the programs never call env.update(), so the obstacle list is empty and the agent goes straight to its target (C70_list_empty, C70_straight, C70_wall, C70_mixed); in testKIT and testMovingObstacle it ends up inside an obstacle (C70_negation_kit, C70_negation_moving); testConfiguration walks into every obstacle on its way, for all random numbers, and plots no obstacle (C70_configuration, C70_negation_configuration); in testWall the target is inside of a wall and the agent is in the wall from iteration 265 on (C70_wall_program, C70_negation_wall); testSingleConfiguration and test3D read an uninitialised vector first, and walk straight through obstacles even if it had been 0 (C70_negation_uninitialised, C70_single, C70_three_d, C70_negation_single, C70_negation_three_d)."),
"C71": ("partial", "C71_outline_partial: the plane xy, all poses. C71_negation_xz: in the plane xz the code fixes phi = -pi/2, so that the line of every unrotated ellipsoid is a vertical segment through its centre."),
"C72": ("partial", "C72_negation: the code stores point instead of safety_point, so the dashed line always equals the solid one; C72_negation_boundary: with a margin no point of it is on the safety boundary. C72_no_margin_partial: true without margin."),
"C73": ("partial", "C73_obstacles, C73_aggregate, C73_frame, C73_plane, C73_guard, C73_guard_space, C73_obstacles_only hold for every heap and scalar type. C73_negation_agent: the lower of the two 3D plots shows the agent at (x,y) instead of (x,z). C73_negation_fresh: an aggregate whose hulls have not been computed cannot be drawn (uninitialised read). Hulls ignore the plane."),
"C74": ("proved", "Static ellipsoids with unit orientation about z and equal integer curvatures, agent and target in the plane, critical distance 1 (the default), real arithmetic; C74_horizon has conditions that can be checked beforehand. C74_negation_critical: with critical distance 0 the claim fails."),
"C75": ("partial", "Reference point in the centre, agent in the plane of the obstacle, real arithmetic; C75_output_partial carries the bound to the result of modulate_velocity for one obstacle at rest. C75_negation_reference: with a reference point elsewhere in the obstacle there is no bound."),
"C76": ("partial", "One ellipsoid with orientation about z, in the plane, real arithmetic. C76_moving_partial: under a condition on every step; C76_forever_partial: under conditions on the initial data only; C76_repaired: they hold for testMovingObstacle.cpp with its own numbers once env.update() is called. C76_negation_limit: false when the speed limit is below the speed of the obstacle. C76_negation_hull: false for every moving hull with chords shorter than 1, which runs over an agent waiting in front of it."),
"C77": ("partial", "Ellipsoids with natural exponents, isLocal = planar = false. C77_accuracy_partial: wherever the exact run does not hit a threshold of the code and does not normalise a zero vector; C77_static_partial: this is so outside of static obstacles for planar velocities, except at the thresholds themselves; C77_formats_partial: for IEEE 754 formats. Missing: explicit error bounds, isLocal, planar, hulls. C77_negation_threshold, C77_negation_double: near the threshold 1e-4 of the half lengths the computed velocity differs by 2/5 of the speed, also for double."),
"C78": ("partial", "Real arithmetic, hull radii positive, wherever the inside tests are defined. C78_distance, C78_normal, C78_repulsion, C78_update. C78_negation_outward: the direction of the normal claimed is false: it points to the centre of the hull, so from outside it points into the wall (the modulation matrix does not depend on the sign)."),
"C79": ("proved", "One ellipsoid at rest with orientation about z and reference point in the centre, in the plane, equal integer curvatures up to 2^52, critical distance at most 1, isLocal = planar = false, pow(0, n) = 0; the conditions on the data are the structure Kept, in exact arithmetic. C79_formats: for IEEE 754 formats. The precision is not computed: whether 53 bits suffice for given data is not decided."),
"C80": ("partial", "C80_stands, C80_rigid: the rigid motion, for all environments, options and random numbers. False for the program: it never calls update(), so both agents move as if there were no obstacles (C80_empty, C80_program), and the guard walks into its obstacle for all moderate random numbers (C80_negation). C80_updated_partial: once update() is called the platform never enters its obstacle, whatever the guard sees, for short steps and without noise in the position of the platform; C80_repaired: so does the program with its own numbers and a speed limit of 30. Nothing is proved about the guard's own obstacle after the repair: its z coordinate is not modulated together with x and y."),
"C81": ("partial", "C81_lines, C81_ellipsoid, C81_aggregate, C81_agent_lines: what is shown; C81_read, C81_same: same text exactly for the same values; C81_total: never fails; C81_angle_axis: unit quaternions, real arithmetic. Digits of numbers: C89. C81_negation_surface: the surface of a hull, its resolution and side are not shown. C81_negation_fresh: an obstacle made from a name alone prints numbers that were never written."),
"C82": ("partial", "False for the code: find_closest_points returns the column after the agent and the next one, so the normal is that of the following chord; C82_negation: at every point of the surface of every flat hull (either kind) where the chord is not perpendicular to the direction to the centre, velocities turning to one side lead inside at once, to the other side outside at once; C82_negation_round: where the hull is round, every velocity turning counterclockwise leads inside; C82_negation_aggregate: the same for aggregates. C82_chord_partial: the part across the chord used is scaled by max(0, 1 - 1/d). Orientation identity, in the plane of the centre, real arithmetic."),
"C83": ("partial", "C83_outside_partial / C83_room_partial: any aggregate whose outside (inside) hull is flat and accompanied by a star-shaped curve S between the surface and the range of the repulsion, with explicit bounds for gain, time step and target; C83_round, C83_round_room: all bounds in closed form for hulls with 12 or more columns at equal angles. Hypotheses: orientation identity, plane z = 0, a single aggregate at rest, primitives ellipsoids, queries never past the last angle (automatic in the round case), inside: never exactly at the centre. C83_negation: for a needle in front of a coin a single iteration, however short, leads from outside into the needle, with repulsion. C83_negation_fails: straight in the negative x direction the first iteration reads past the end. Without repulsion see C82_negation_aggregate. Real arithmetic."),
"C84": ("partial", "C84_target_partial: one disc at rest in the plane (all margins included; curvature 1, reference point at its centre), with or without repulsion, with or without speed limit, explicit bounds for gain and time step: convergence from every starting point outside the disc that is not exactly behind the centre, no failure, the agent stays outside and moves away from the target only while it is repelled. C84_ellipse_partial: the same convergence for one ellipse or rounded rectangle of any aspect ratio (any integer curvature exponent, any pose in the plane, margins included, reference point at its centre) with repulsion. C84_ellipse_free_partial: ellipses with κ at most 1000 without repulsion. False exactly behind the centre (C84_negation_behind, C84_negation_behind_ellipse, C84_negation_behind_free: the agent stays there for ever) and for targets within the range of the repulsion (C84_negation_repelled). Missing: rounded rectangles without repulsion, other reference points, several or moving obstacles, arbitrarily long or absurdly short time steps. Real arithmetic."),
"C85": ("proved", "C85_program: any scalar type, any acyclic heap of drawable (initialised) obstacles; C85_cross: real arithmetic, obstacles that share no parts; C85_optimization: the program returns normally for any scalar type; C85_optimization_groups: its groups in real arithmetic. What matplotlib does with the commands is not modelled."),
"C86": ("partial", "C86_current: any scalar type and heap: hulls belong to the present members. C86_enclose_partial: ellipses, real arithmetic: in the direction of each column the hull reaches nine tenths of the way to the farthest (inside hull: nearest) boundary point. C86_negation: between columns and because of smoothing the hull cuts off the tips of thin members; an agent in front of such a tip is led into the member by a single step of suitable length, with and without repulsion."),
"C87": ("partial", "C87_exact: exactly when, for every scalar type and all options; C87_usable: no uninitialised data after update(). C87_defined_partial: real arithmetic, all agents except those seen from a reference position within 2e-4 above the negative x axis. C87_negation: in every environment of unrotated ellipses, an agent straight in the negative x direction of the reference position of an aggregate makes modulate_velocity access a column past the end. Aggregates nested by the client are not covered."),
"C88": ("proved", "One environment; pointers in other environments and agents count as held by the client. Any scalar type. C88_safe, C88_update_defined: nothing reachable is destroyed or dangling; C88_acyclic, C88_cycle_crashes: adding an aggregate to itself does not return; C88_no_leak, C88_settles, C88_end: what is left; C88_update_loop, C88_loop_defined, C88_created: repeated updates. The client does not assign whole aggregates (*p = *q), which could build a cycle; weak pointers and threads are not modelled."),
"C89": ("proved", "Any ordered field with integer part, in particular the real and rational numbers; the conversion is transcribed from the C standard (%.6g, round half to even as in glibc). C89_nearest, C89_accuracy, C89_exact, C89_literal, C89_sign, C89_monotone, C89_same: values; C89_shape, C89_notation, C89_chars, C89_length: form; C89_state, C89_agent, C89_ellipsoid: whole texts; C89_special. Not represented: the sign of zero and NaN, the padding of transpose()."),
"C90": ("proved", "Any scalar type, acyclic memories. C90_queries, C90_intersects, C90_repulsion, C90_in_obstacle, C90_path, C90_velocity: single calls; C90_update: aggregation, for obstacles that share no primitives (reference positions of shared primitives depend on the order in which aggregates are built); C90_run, C90_run_mixed, C90_run_wall: loops. The loop of testMovingObstacle is not covered."),
"C91": ("proved", "Any scalar type, both modes of the environment. The loop of testKIT and testConfiguration, with the call of update() these programs lack. The envelope of the agent is not an obstacle of the environment."),
"C92": ("proved", "Any scalar type, acyclic memories (a cyclic nesting recurses without end, C88_cycle_crashes). C92_defined, C92_last_write, C92_position, C92_reference, C92_untouched, C92_commute, C92_orientation (real numbers), C92_constructors, C92_states, C92_ellipsoids. set_type is protected and not modelled."),
"C93": ("proved", "C93_defined for any scalar type; C93_centre, C93_least, C93_order, C93_moves, C93_disc over the real numbers. C93_order is about radii: if two intersection points on a ray are equally far their stored angles may differ by 1e-4. C93_empty (doubles): the centre of an empty list is NaN."),
"C94": ("partial", "C94_entry, C94_lasts: names of the map, any scalar type, all histories. C94_slot_partial: names found in the list of aggregated obstacles: exactly one slot is overwritten, the name refers to the assigned obstacle if that is its own name. C94_negation: otherwise the next lookup throws. C94_update: such an assignment is undone by the next update(). C94_negation_twice: afterwards the same obstacle can be listed twice."),
"C95": ("partial", "All tests but one pass: C95_state_partial, C95_ellipsoid_partial, C95_weights_partial, C95_matrices_partial, C95_relative_partial, C95_modulation_partial, C95_add_partial (all values of rand()), C95_list_partial, C95_aggregation_partial. C95_negation: the test ModulateVelocity fails, since it never calls update(); C95_repaired_partial: with that call it passes."),
"C96": ("partial", "C96_cause, C96_quiet, C96_build, C96_text: exactly these calls throw, any scalar type, all heaps. C96_handler_partial, C96_distinct_partial: exceptions of the environment are caught and the text determines error and name, for names without a zero character. C96_negation: linspace throws a pointer, which is not caught as std::exception (reached through a hull with fewer than two columns); names that differ only behind a zero character give the same text."),
"C97": ("partial", "Real arithmetic, any number of (super)ellipsoids with unit orientation. C97_exists, C97_measures: every valid view of every ellipsoid, distances and normals. C97_velocity_partial: coordinates with the same vertical axis (shifted, turned about it, reflected), obstacles at rest or with normals without vertical component, all options (is_local: upright ellipses). C97_loop_partial: any number of iterations, is_local off. C97_negation: in coordinates with another vertical axis a ball at rest gives another velocity. C97_negation_moving: with a moving ball, half a turn about the vertical axis is enough. C97_negation_hull: with left and right exchanged, an agent at a hull that is its own mirror image is led into it on one side and away from it on the other. Positive statements for hulls and aggregates are not given."),
"C98": ("partial", "Real arithmetic, any number of (super)ellipsoids in any motion with three equal whole exponents and half lengths above 1e-4 in both units. C98_exists, C98_measures: distances and normals. C98_velocity_partial: all units of length and time, without is_local and add_repulsion, planar or not. C98_repulsion_partial: with add_repulsion, unit of time kept, up to the cut-off of repulsions below 1e-4. C98_loop_partial: any number of iterations. C98_negation: the repulsion is a length added to a velocity. C98_negation_local: the envelope looks half a unit ahead. C98_negation_thin, C98_negation_exponents: the excluded shapes. Hulls and aggregates: C98_hull, C98_hull_queries, C98_update_hull, C98_queries (compute_from_primitives, update_hull and the queries in all units, for all hulls, primitives and nestings, undefined behaviour included). C98_obstacles_partial, C98_obstacles_repulsion_partial: modulate_velocity among obstacles of all kinds, not planar, hulls and aggregates at rest with normals longer than 1e-4 in both units. C98_negation_aggregate: the constructor of an aggregate always takes 1/2 for the minimum radius. C98_negation_moving_hull: an agent at rest on the surface of a moving hull is commanded a velocity a million times too large in millimetres. The unit of time alone (Props/Faster.lean): C98_time_partial, for obstacles of all kinds, shapes and motions, with is_local and planar modulation, without repulsion, with the same exceptions and undefined behaviour; C98_time_repulsion_partial: with the repulsion, the modulated part is converted and the repulsion stays the same vector; C98_time_loop_partial, C98_time_path_partial, C98_time_mixed_partial, C98_time_wall_partial, C98_time_moving_partial: the four control loops of the tests, any number of iterations."),
"C99": ("partial", "Real arithmetic, obstacles of all kinds and nestings. C99_queries, C99_tests: all queries, in_obstacle, exist_path, all displacements. C99_velocity, C99_loops: modulate_velocity and the loops without is_local, all displacements. C99_update_partial, C99_velocity_partial, C99_loops_partial: update and the local sight, if the displacement is horizontal or all ellipsoids are upright. C99_negation: after a vertical displacement update() no longer sees that a tilted obstacle meets another, since the samples of an ellipsoid always lie in the plane z = 0."),
"C100": ("partial", "C100_names: the sort by name is within the contract for every range. C100_radii_exact, C100_theta_exact: a range of doubles may be sorted iff no key is NaN or no key is less than another. C100_radii_partial (ideal doubles): the ranges sorted by compute_hull are within the contract for all primitives whose half lengths in the plane are not zero, also on rays of infinite or NaN slope. C100_search_partial (reals, at most 31416 rays): exactly when the range searched in a computed hull is partitioned. C100_negation: not with a half length 0 (radii NaN). C100_negation_theta: not for the zero vector. C100_negation_search: not for the queries of a hull around a disc, whose first column is stored at the angle pi."),
"C101": ("proved", "C101_hull, C101_hull_queries, C101_update, C101_velocity: ideal doubles and reals end in the same way, failures included. C101_rotated: which ellipsoids meet the condition on the rays. C101_clear: hulls with positive minimum radius meet the condition of the distance query everywhere but in the centre. C101_quarter_turn: the excluded quarter turns give a hull with a dent (first ray misses the obstacle). Rounding is not modelled."),
"C102": ("partial", "C102_names, C102_distinct, C102_mean: names in the same order, same centre, same list if the names differ. C102_model: the model computes one of the permitted hulls; C102_primitives: the permitted hulls do not depend on the order of the primitives. C102_radii: all permitted hulls have the same radii, for any primitives. C102_distance_partial: the same distances and tests for inside, for primitives turned about the vertical axis and 500 rays. C102_level_partial: the same hull, if moreover all primitives are at the same height. C102_negation: with discs at different heights, equally far from the reference point, the direction of the normal depends on the order. Real arithmetic."),
"C103": ("partial", "C103_near: an obstacle with a point nearer to the agent than max(0.1, margin)/2 minus the gap between its samples (pi/99 of the larger half length) is in sight for every velocity in the plane. C103_local_partial: under the conditions of C74 and if at every iteration margin + step + gap <= max(0.1, margin)/2, the loop with is_local and repulsion stays outside of all obstacles; C103_horizon_partial: the same with conditions that can be checked beforehand. Full statement: without the condition on the gap. C103_negation: for a wall 100 long and 0.2 thick and every small time step the agent walks straight through the wall to the target, with and without repulsion, because no sampled point is in its envelope. C103_negation_margin: an agent with margin 1/2 heading past a unit disc gets into the margin around the disc. Real arithmetic."),
"C104": ("partial", "Real arithmetic, any number of (super)ellipsoids in any motion, without is_local and planar. C104_continuous_partial: along any filter the velocities commanded in situations that tend to a limit tend to the velocity commanded in the limit, if no comparison of the code is a tie there (Steady). C104_agent_partial: the same for the agent alone, as epsilon and delta. C104_static_partial: for obstacles at rest and a desired velocity in the plane (or none) only the numerical thresholds of the code are left: critical distance with several obstacles, 1e-4 for the angle and the tangent, 1.1 and 1e-4 for the repulsion. C104_run_partial: n iterations of the control loop. Full statement: also at the thresholds. C104_negation_repulsion: at distance 1.1 of a unit ball the velocity jumps by more than 1.9. C104_negation_small_angle: at a deflection of 1e-4 it jumps by more than 1e-9. C104_negation_hull: at the directions of the columns of a hull it jumps by more than 1/4, and with it the test for inside."),
"C105": ("partial", "Real arithmetic, (super)ellipsoids (exponent 1, or balls, for the obstacle that leaves), without is_local and planar. C105_far_partial: the obstacle (at rest or not) is carried along a ray in any direction, at any place of the list, all other obstacles arbitrary; the result tends to the one without it, as epsilon and S, with and without repulsion, for every positive power. C105_static_partial: among obstacles at rest, leaving in its own x-y plane, only the threshold for small angles is left as a hypothesis. C105_alone: a single obstacle, no condition on the agent. Missing: situations in which the result for the other obstacles is a tie (there the code jumps, C104_negation_small_angle), and directions with |n x z| exactly 1E-4. False for powers that are not positive: C105_negation_power (power 0, a ball at any distance behind the one ahead changes the speed by more than 1/16)."),
"C106": ("partial", "Real arithmetic, one ellipsoid at rest (any exponent) upright in the plane, with repulsion, not local, not planar. C106_leaves_partial: with 1 - f0/d >= eta > 0 (f0, d the distance function at the reference point and at the agent) the agent is outside after any n with n dt gamma eta > 1 - d, for all targets and step lengths (gamma: the part of the speed that the limit of the speed leaves, 1 without limit); C106_stays_partial: and outside after n iterations, under the conditions of C69; C106_leaves_explicit_partial: reference point at the centre, all conditions explicit, out within the time (1 - d)/gamma. Missing: several obstacles (for aggregates the inside is meant as a room: C83_room_partial). False for hulls with or without repulsion: C106_negation_hull (every hull, every agent inside with its target on the line through the centre). False without repulsion: C106_negation (every obstacle, every agent inside whose target is on the line through the reference point stays at its place for ever); false for two obstacles with repulsion: C106_negation_between (in the middle of two overlapping balls the repulsions cancel, the agent stays for ever)."),
"C107": ("partial", "C107_copies_partial: a list that consists of any number of copies of one obstacle of any kind (ellipsoid, hull, aggregate; at rest or moving), with or without is_local, without planar modulation and repulsion: exactly the same velocity, or the same failure. C107_planar_partial: copies of an ellipsoid with planar modulation. False otherwise: C107_negation_others (the other obstacles lose weight: an obstacle listed twice next to another one changes the speed from 26/33 to 44/57); C107_negation_repulsion (the repulsion is doubled). Real arithmetic."),
"C108": ("proved", "Generic in the number type (real numbers, doubles, rounding of any kind). C108_velocity, C108_queries: single calls; C108_run, C108_run_mixed, C108_run_wall, C108_run_moving: the loops, for two agents that differ in orientation and angular velocity, with the same failures, and neither agent is turned; C108_turning: a loop that calls set_orientation and set_angular_velocity with arbitrary values in every iteration has the same path; C108_guard: the guard program for all random numbers, if the orientations of the platforms agree."),
"C109": ("partial", "For names without the separator '_' (the empty name included), all heaps, histories and modes: C109_code_partial (the names of the members can be read off the name), C109_members_partial, C109_distinct_partial (different entries of the list have different names), C109_found_partial (every entry of the list is found by its name). False in general: C109_negation (groups {a, b_c} and {a_b, c} are both called aggregate_a_b_c and one of them cannot be reached by any name), C109_negation_taken (an obstacle called aggregate_a_b hides the aggregate of a and b)."),
"C110": ("partial", "C110_plain: without aggregation, any scalar type, all histories before, all calls in between (thrown exceptions caught): the whole state is the same. C110_apart_partial: with aggregation, if no two of the obstacles involved meet and they keep their names. C110_meet_partial, C110_members_partial: with aggregation, obstacles that meet in any way, coming and going: same map, equal aggregates at the same places of the list, same lone obstacles, members of aggregates unchanged; only the reference position of obstacles left alone by both updates can differ. C110_negation: with aggregation, a disc that met another one keeps the reference position of the aggregate after the other one is removed; same names, same list, but the agent is pushed aside where it was slowed down before. Missing: only what is false (reference positions of lone obstacles)."),
"C111": ("partial", "C111_queries, C111_velocity, C111_run, C111_run_moving: generic in the number type, obstacles of all kinds, nested aggregates included: two heaps that are equal up to names give the same answers, velocities and runs (loops of testKIT.cpp, testConfiguration.cpp, testWall.cpp, testMovingObstacle.cpp) for the same list, to the last bit, or the same failure. C111_environment: without aggregation, real arithmetic, any names and any order of registration. C111_apart_partial: with aggregation, if no two obstacles meet. C111_groups_partial: with aggregation, all scalar types, obstacles that meet in any way: if the intersection test is symmetric among them, the same obstacles are put into one aggregate and the same ones stay alone. C111_centres_partial: and, in real arithmetic, corresponding aggregates have the same members, centre and reference position. C111_negation: with aggregation two overlapping ellipsoids become one aggregate, or stay two obstacles, depending on which name comes first (the intersection test is not symmetric, C29_negation). Missing: the hulls of the aggregates, hence the velocity around them (the smoothing of a hull reads columns left by the first pair that was added, and which pair is first depends on the names)."),
"C112": ("partial", "C112_alone_partial, C112_completes_partial, C112_order_partial: every scalar type, any number of agents and any schedule, obstacles of all kinds, is_local and repulsion included: every agent ends in the state it reaches alone, all get through if each one does alone, permuted schedules give the same states, and no object but the envelopes changes. Agents may share an envelope (as after a copy). C112_moving_partial: the setters of obstacles may be called between the turns; leaving out all turns of the other agents changes neither the agent nor any obstacle. Missing: planar modulation is allowed only where there are no ellipsoids; no update() between the turns. C112_negation: with planar modulation in the loop of one agent, the reference position of a disc is moved and another agent, which does not use it, is pushed aside where it goes straight ahead alone."),
"C113": ("partial", "Real arithmetic, all kinds of obstacles, all memory at rest, is_local and planar modulation as one likes, without repulsion. C113_velocity_partial: modulate_velocity is positively homogeneous, with the same shifts, exceptions and undefined behaviour. C113_repulsion_partial: with add_repulsion the modulated part is homogeneous and the repulsion stays the same vector at all speeds. C113_loop_partial: the control loop with gain, largest speed and time step converted. C113_mixed_partial, C113_wall_partial: the loops of test3D.cpp and testWall.cpp. C113_product_partial: without limit of the speed and from rest the path depends on gain * dt only. C113_negation: with add_repulsion an agent at its target on the surface of a ball gets to (3,0,0) with gain 1 and step 1, but to (2,0,0) with gain 2 and step 1/2."),
"C114": ("proved", "C114_memoryless: for every scalar type, all lists of stages (iterations of the loops of testKIT.cpp, test3D.cpp and testWall.cpp) without planar modulation as pasts, and any further iterations of the loops of testKIT.cpp and test3D.cpp, planar or not, as the future. C114_wall: the loop of testWall.cpp as the future. Exceptions and undefined behaviour are the same too. With planar modulation the obstacles remember the last line of sight (C112_negation)."),
}
