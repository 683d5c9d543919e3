{
 "claims": [
  {
   "property": "C01",
   "status": "proved",
   "theorems": [
    "DOA.Props.C01_lookup",
    "DOA.Props.C01_add",
    "DOA.Props.C01_remove",
    "DOA.Props.C01_unaffected"
   ],
   "note": "Every history of calls, interleaved with arbitrary client mutations of the obstacles."
  },
  {
   "property": "C02",
   "status": "proved",
   "theorems": [
    "DOA.Props.C02_list_stable",
    "DOA.Props.C02_snapshot",
    "DOA.Props.C02_no_update",
    "DOA.Props.C02_mode"
   ],
   "note": "With aggregation off the list is the snapshot in name order; it only changes in update() or by assigning through operator[]."
  },
  {
   "property": "C03",
   "status": "partial",
   "theorems": [
    "DOA.Props.C03_after_update",
    "DOA.Props.C03_lookup_partial",
    "DOA.Props.C03_negation"
   ],
   "note": "Name resolution exactly as stated; C03_negation: in aggregated mode a removed obstacle stays reachable until the next update(); C03_after_update: right after update() it does hold."
  },
  {
   "property": "C04",
   "status": "proved",
   "theorems": [
    "DOA.Props.C04_update",
    "DOA.Props.C04_shape_covers"
   ],
   "note": "update() on any world; shape covers every field except the reference position."
  },
  {
   "property": "C05",
   "status": "proved",
   "theorems": [
    "DOA.Props.C05_partition"
   ],
   "note": "Every list of obstacles in an acyclic heap."
  },
  {
   "property": "C06",
   "status": "proved",
   "theorems": [
    "DOA.Props.C06_placement",
    "DOA.Props.C06_components",
    "DOA.Props.C06_no_meets"
   ],
   "note": "Placement by connected components (also with duplicated pointers), and the statement for lists without duplicates."
  },
  {
   "property": "C07",
   "status": "proved",
   "theorems": [
    "DOA.Props.C07_defined",
    "DOA.Props.C07_closed"
   ],
   "note": "No undefined behaviour, no exception; result closed so that update can be repeated."
  },
  {
   "property": "C08",
   "status": "proved",
   "theorems": [
    "DOA.Props.C08_add_primitive",
    "DOA.Props.C08_constructor",
    "DOA.Props.C08_order_independent",
    "DOA.Props.C08_update"
   ],
   "note": "add_primitive, the constructor from a list, order independence, aggregates built by update."
  },
  {
   "property": "C09",
   "status": "proved",
   "theorems": [
    "DOA.Props.C09_set_reference",
    "DOA.Props.C09_history",
    "DOA.Props.C09_update"
   ],
   "note": "Histories of one aggregate over the reals and aggregates built by update for obstacles that do not share sub-obstacles."
  },
  {
   "property": "C10",
   "status": "partial",
   "theorems": [
    "DOA.Props.C10_untouched_partial",
    "DOA.Props.C10_negation"
   ],
   "note": "False: C10_negation exhibits an update, a separation and a second update after which the reference point is still the old mean and lies outside the obstacle. Proved: obstacles that never met anything keep their reference point."
  },
  {
   "property": "C11",
   "status": "partial",
   "theorems": [
    "DOA.Props.C11_negation_velocity",
    "DOA.Props.C11_negation_modulation",
    "DOA.Props.C11_negation"
   ],
   "note": "False: aggregates always carry zero velocity, so the motion of merged obstacles is ignored (C11_negation, C11_negation_velocity, C11_negation_modulation)."
  },
  {
   "property": "C12",
   "status": "proved",
   "theorems": [
    "DOA.Props.C12_idempotent"
   ],
   "note": "update after update: all objects unchanged, list entries equal as objects; aggregates are fresh copies."
  },
  {
   "property": "C13",
   "status": "proved",
   "theorems": [
    "DOA.Props.C13_linspace_even",
    "DOA.Props.C13_linspace_increasing",
    "DOA.Props.C13_linspace_endpoints",
    "DOA.Props.C13_linspace_throws"
   ],
   "note": "linspace over the reals; throws for num < 2."
  },
  {
   "property": "C14",
   "status": "proved",
   "theorems": [
    "DOA.Props.C14_gridspace",
    "DOA.Props.C14_gridspace_throws"
   ],
   "note": "gridspace over the reals; throws when one count is < 2."
  },
  {
   "property": "C15",
   "status": "proved",
   "theorems": [
    "DOA.Props.C15_cartesian_round_trip",
    "DOA.Props.C15_polar_round_trip"
   ],
   "note": "Both round trips over the reals."
  },
  {
   "property": "C16",
   "status": "partial",
   "theorems": [
    "DOA.Props.C16_find_closest_partial",
    "DOA.Props.C16_negation",
    "DOA.Props.C16_empty"
   ],
   "note": "Holds when some column has an angle >= the query and there is at least one column; C16_negation: otherwise the returned index is out of range; C16_empty: on an empty matrix the remainder is by zero."
  },
  {
   "property": "C17",
   "status": "proved",
   "theorems": [
    "DOA.Props.C17_sorted_cols"
   ],
   "note": "Permutation and sortedness."
  },
  {
   "property": "C18",
   "status": "proved",
   "theorems": [
    "DOA.Props.C18_rand_float_range",
    "DOA.Props.C18_rand_float_ends",
    "DOA.Props.C18_sign"
   ],
   "note": "rand_float as an affine function of rand()/RAND_MAX in [0,1]."
  },
  {
   "property": "C19",
   "status": "proved",
   "theorems": [
    "DOA.Props.C19_compose",
    "DOA.Props.C19_assoc",
    "DOA.Props.C19_neutral",
    "DOA.Props.C19_mul_assign",
    "DOA.Props.C19_apply"
   ],
   "note": "Poses with unit orientation; includes the aliased p *= p."
  },
  {
   "property": "C20",
   "status": "partial",
   "theorems": [
    "DOA.Props.C20_unit_partial",
    "DOA.Props.C20_constructor_w_nonneg",
    "DOA.Props.C20_constructor_rotation",
    "DOA.Props.C20_negation"
   ],
   "note": "Invariant over all histories of constructors/setters/composition/inverse when constructor arguments are non-zero and have norm < 1.0001; C20_negation: a constructor argument of norm >= 1.0001 (e.g. 2) is never normalised (and the pose then is not an isometry)."
  },
  {
   "property": "C21",
   "status": "proved",
   "theorems": [
    "DOA.Props.C21_inverse_apply",
    "DOA.Props.C21_inverse_mul",
    "DOA.Props.C21_inverse_inverse",
    "DOA.Props.C21_inverse_of_product",
    "DOA.Props.C21_isometry"
   ],
   "note": "Inverse, double inverse, inverse of a product, isometry."
  },
  {
   "property": "C22",
   "status": "proved",
   "theorems": [
    "DOA.Props.C22_distance_is_level",
    "DOA.Props.C22_distance_classifies"
   ],
   "note": "Exact level function over the reals and its classification."
  },
  {
   "property": "C23",
   "status": "proved",
   "theorems": [
    "DOA.Props.C23_frame_invariance"
   ],
   "note": "Invariance under a common rigid motion."
  },
  {
   "property": "C24",
   "status": "partial",
   "theorems": [
    "DOA.Props.C24_margin_monotone_partial",
    "DOA.Props.C24_inside_monotone",
    "DOA.Props.C24_negation"
   ],
   "note": "Monotone for lengths above the 1e-4 guard; C24_negation: at the guard the distance jumps up."
  },
  {
   "property": "C25",
   "status": "partial",
   "theorems": [
    "DOA.Props.C25_normal_unit_outward",
    "DOA.Props.C25_normal_gradient_partial",
    "DOA.Props.C25_negation"
   ],
   "note": "Unit length and outward for all even-power curvatures; parallel to the gradient for curvature 1 or equal half lengths; C25_negation: not parallel for curvature 2 with different lengths."
  },
  {
   "property": "C26",
   "status": "partial",
   "theorems": [
    "DOA.Props.C26_inside_partial",
    "DOA.Props.C26_negation_z",
    "DOA.Props.C26_negation_curvature"
   ],
   "note": "In the plane, for rotations about z and curvature 1; two negations: z coordinate ignored, curvature ignored."
  },
  {
   "property": "C27",
   "status": "partial",
   "theorems": [
    "DOA.Props.C27_line_intersection_partial",
    "DOA.Props.C27_negation_vertical",
    "DOA.Props.C27_negation"
   ],
   "note": "Lines that are not vertical in the obstacle frame (over the reals). C27_negation(_vertical): over ideal doubles every line parallel to the y axis of the obstacle frame is reported as missing the obstacle."
  },
  {
   "property": "C28",
   "status": "proved",
   "theorems": [
    "DOA.Props.C28_samples",
    "DOA.Props.C28_samples_on_boundary"
   ],
   "note": "All samples on the boundary; first and last sample coincide."
  },
  {
   "property": "C29",
   "status": "partial",
   "theorems": [
    "DOA.Props.C29_total",
    "DOA.Props.C29_sound_partial",
    "DOA.Props.C29_detects_centres",
    "DOA.Props.C29_negation",
    "DOA.Props.C29_deep_partial"
   ],
   "note": "Always defined; no false positive; detects inclusion of centres (C29_detects_centres) and every overlap deeper than pi/99 of the larger half length of the other ellipse (C29_deep_partial); C29_negation: overlapping discs not detected."
  },
  {
   "property": "C30",
   "status": "partial",
   "theorems": [
    "DOA.Props.C30_exact",
    "DOA.Props.C30_symmetric_partial",
    "DOA.Props.C30_negation",
    "DOA.Props.C30_negation_ellipsoids",
    "DOA.Props.C30_centres_partial"
   ],
   "note": "C30_negation: aggregate.is_intersecting(ellipsoid) is always false while the converse may be true; C30_negation_ellipsoids: not symmetric between ellipsoids either. C30_exact says exactly when the answer is yes, for all kinds and nestings; C30_symmetric_partial and C30_centres_partial are the symmetric cases."
  },
  {
   "property": "C31",
   "status": "partial",
   "theorems": [
    "DOA.Props.C31_area_partial",
    "DOA.Props.C31_negation"
   ],
   "note": "Positivity/monotonicity parts; C31_negation: wrong for spheres."
  },
  {
   "property": "C32",
   "status": "proved",
   "theorems": [
    "DOA.Props.C32_homogeneous",
    "DOA.Props.C32_homogeneous_world",
    "DOA.Props.C32_ray_growth"
   ],
   "note": "Homogeneity and growth along rays."
  },
  {
   "property": "C33",
   "status": "proved",
   "theorems": [
    "DOA.Props.C33_convex",
    "DOA.Props.C33_critical",
    "DOA.Props.C33_free"
   ],
   "note": "Over the reals, all lists, critical distances and powers."
  },
  {
   "property": "C34",
   "status": "proved",
   "theorems": [
    "DOA.Props.C34_inside",
    "DOA.Props.C34_outside",
    "DOA.Props.C34_monotone",
    "DOA.Props.C34_limit"
   ],
   "note": "All distances and positive reactivity; limit at infinity."
  },
  {
   "property": "C35",
   "status": "partial",
   "theorems": [
    "DOA.Props.C35_orthogonal_partial",
    "DOA.Props.C35_negation"
   ],
   "note": "Columns always mutually orthogonal, first column the normal; orthonormal when the normal is horizontal or exactly vertical. C35_negation: the tangent is not normalised, so in general the basis is not orthonormal."
  },
  {
   "property": "C36",
   "status": "partial",
   "theorems": [
    "DOA.Props.C36_reference",
    "DOA.Props.C36_tangent_partial",
    "DOA.Props.C36_regular",
    "DOA.Props.C36_far",
    "DOA.Props.C36_negation"
   ],
   "note": "Reference direction scaled by 1-1/d and invertibility in all regular positions, limit far away; tangents in the plane of the obstacle or for a centred ball. C36_negation: false in space for a shifted reference point."
  },
  {
   "property": "C37",
   "status": "partial",
   "theorems": [
    "DOA.Props.C37_impenetrable_partial",
    "DOA.Props.C37_negation",
    "DOA.Props.C37_negation_curvature"
   ],
   "note": "In the plane of the obstacle, or a ball with centred reference, for exact normals. C37_negation: false in space; C37_negation_curvature: false for curvature 2 with different lengths."
  },
  {
   "property": "C38",
   "status": "partial",
   "theorems": [
    "DOA.Props.C38_output_partial",
    "DOA.Props.C38_negation",
    "DOA.Props.C38_negation_output",
    "DOA.Props.C38_never_enters_partial"
   ],
   "note": "For the velocity M(x)v, obstacles with exact normals (curvature 1 or equal lengths), planar motion or centred ball; all time, all continuous desired velocities. C38_output_partial: the same for the result of modulate_velocity outside its small-angle branch. C38_negation: false for curvature 2 with different half lengths, where the agent slides along the wrong surface into the obstacle. C38_negation_output: false for the velocity that modulate_velocity returns even around a ball, because the small-angle branch adds a positive multiple of the desired velocity; an agent that grazes the ball spirals through its surface."
  },
  {
   "property": "C39",
   "status": "proved",
   "theorems": [
    "DOA.Props.C39_single"
   ],
   "note": "Obstacle of any kind, planar velocity: exact outside the small-angle branch, relative error at most 1e-8 inside it."
  },
  {
   "property": "C40",
   "status": "proved",
   "theorems": [
    "DOA.Props.C40_empty",
    "DOA.Props.C40_local",
    "DOA.Props.C40_seen"
   ],
   "note": "For every scalar type, including the converse (in sight: same result as without is_local)."
  },
  {
   "property": "C41",
   "status": "proved",
   "theorems": [
    "DOA.Props.C41_no_nan"
   ],
   "note": "For every scalar type with a NaN test, in particular doubles."
  },
  {
   "property": "C42",
   "status": "proved",
   "theorems": [
    "DOA.Props.C42_far",
    "DOA.Props.C42_near",
    "DOA.Props.C42_outward",
    "DOA.Props.C42_stronger",
    "DOA.Props.C42_added"
   ],
   "note": "Zero beyond the threshold, otherwise 2/d*(x-ref); points outward; decreasing along rays; modulate_velocity adds the sum over all obstacles after the modulation (C42_added)."
  },
  {
   "property": "C43",
   "status": "proved",
   "theorems": [
    "DOA.Props.C43_speed",
    "DOA.Props.C43_bound"
   ],
   "note": "Static obstacles of any kind, planar velocity; factor 2 for centred balls; relative error at most 1e-8 from the small-angle branch."
  },
  {
   "property": "C44",
   "status": "partial",
   "theorems": [
    "DOA.Props.C44_hull",
    "DOA.Props.C44_sum",
    "DOA.Props.C44_weighted_partial",
    "DOA.Props.C44_orthonormal",
    "DOA.Props.C44_galilean",
    "DOA.Props.C44_common",
    "DOA.Props.C44_negation"
   ],
   "note": "Relative velocity is agent velocity minus the weighted sum of surface velocities, exact when the normals are horizontal; Galilean form of the whole computation. C44_negation: in space the non-orthonormal basis distorts the obstacle velocity. C44_hull: for hulls the velocity is multiplied by the squared length of a chord of the surface, whatever the hull is; so the claim is false for every hull whose chord is not of length 1."
  },
  {
   "property": "C45",
   "status": "partial",
   "theorems": [
    "DOA.Props.C45_negation_vertical",
    "DOA.Props.C45_negation",
    "DOA.Props.C45_negation_small_angle",
    "DOA.Props.C45_focus_partial"
   ],
   "note": "C45_focus_partial: one focused obstacle in the plane. C45_negation_vertical / C45_negation: false for vertical velocities; C45_negation_small_angle: false in the small-angle branch."
  },
  {
   "property": "C46",
   "status": "proved",
   "theorems": [
    "DOA.Props.C46_order",
    "DOA.Props.C46_names"
   ],
   "note": "All permutations, all options, all obstacle kinds; over the reals, well-founded aggregates."
  },
  {
   "property": "C47",
   "status": "partial",
   "theorems": [
    "DOA.Props.C47_negation_vertical",
    "DOA.Props.C47_not_planar",
    "DOA.Props.C47_frame",
    "DOA.Props.C47_shifted",
    "DOA.Props.C47_chord_partial"
   ],
   "note": "Frame condition and unchanged when missed: every scalar type. Midpoint of the chord and inside the obstacle: over the reals, heading not parallel to the y axis of the obstacle frame (there the code divides by zero: C47_negation_vertical)."
  },
  {
   "property": "C48",
   "status": "partial",
   "theorems": [
    "DOA.Props.C48_planar_partial",
    "DOA.Props.C48_negation_half"
   ],
   "note": "All obstacle kinds, any number, all options, curvature exponent in z different from 1/2. C48_negation_half: for exponent 1/2 the code computes pow(0,0)=1 and the result leaves the plane."
  },
  {
   "property": "C49",
   "status": "partial",
   "theorems": [
    "DOA.Props.C49_calls",
    "DOA.Props.C49_envelope_partial",
    "DOA.Props.C49_fresh",
    "DOA.Props.C49_negation"
   ],
   "note": "All histories with at least one pose/velocity setter. C49_negation: a freshly constructed agent has the unit ball as envelope, because the constructors do not call update_envelope."
  },
  {
   "property": "C50",
   "status": "partial",
   "theorems": [
    "DOA.Props.C50_ignored",
    "DOA.Props.C50_negation",
    "DOA.Props.C50_next_setter_partial"
   ],
   "note": "C50_negation / C50_ignored: set_safety_margin never changes the envelope. C50_next_setter_partial: it takes effect with the next setter, for all histories."
  },
  {
   "property": "C51",
   "status": "partial",
   "theorems": [
    "DOA.Props.C51_negation_copy",
    "DOA.Props.C51_negation_shared",
    "DOA.Props.C51_copy_partial",
    "DOA.Props.C51_negation"
   ],
   "note": "C51_negation_copy: every setter, transformed() and local modulation on a copy dereference null; C51_negation(_shared): assignment shares the envelope. C51_copy_partial: what works on copies."
  },
  {
   "property": "C52",
   "status": "partial",
   "theorems": [
    "DOA.Props.C52_total",
    "DOA.Props.C52_inside",
    "DOA.Props.C52_deep",
    "DOA.Props.C52_centre",
    "DOA.Props.C52_touches_partial",
    "DOA.Props.C52_negation",
    "DOA.Props.C52_near_partial"
   ],
   "note": "First half: all ellipsoids, every scalar type. Second half: obstacles rotated about z; C52_near_partial: a converse up to 3.2 percent of the half length. C52_negation: false for a tilted rod."
  },
  {
   "property": "C53",
   "status": "proved",
   "theorems": [
    "DOA.Props.C53_exact",
    "DOA.Props.C53_empty",
    "DOA.Props.C53_symmetric",
    "DOA.Props.C53_order",
    "DOA.Props.C53_total"
   ],
   "note": "All obstacle kinds, every scalar type, whenever the function returns; it always returns on ellipsoids."
  },
  {
   "property": "C54",
   "status": "partial",
   "theorems": [
    "DOA.Props.C54_step_partial",
    "DOA.Props.C54_history_partial",
    "DOA.Props.C54_negation"
   ],
   "note": "C54_negation: 0.95*min_radius occurs for every resolution >= 3. C54_history_partial: at least (1-19^-n)*min_radius after n computations, all primitives and histories."
  },
  {
   "property": "C55",
   "status": "partial",
   "theorems": [
    "DOA.Props.C55_negation",
    "DOA.Props.C55_contraction_partial",
    "DOA.Props.C55_history_partial"
   ],
   "note": "C55_negation: computing twice differs from computing once. C55_contraction_partial / C55_history_partial: everything but the radii is history independent, and radii differ by at most D/19^n after n computations."
  },
  {
   "property": "C56",
   "status": "partial",
   "theorems": [
    "DOA.Props.C56_exact",
    "DOA.Props.C56_negation_general",
    "DOA.Props.C56_defined_partial",
    "DOA.Props.C56_negation_lines",
    "DOA.Props.C56_negation"
   ],
   "note": "C56_negation: out-of-range access for every point straight in the negative x direction of the reference point, for all unrotated ellipsoids and all resolutions. C56_exact: exactly when. C56_defined_partial: defined for all points with angle at most pi-0.0002."
  },
  {
   "property": "C57",
   "status": "proved",
   "theorems": [
    "DOA.Props.C57_outside",
    "DOA.Props.C57_inside",
    "DOA.Props.C57_computed"
   ],
   "note": "Both kinds; C57_computed needs no assumption on the surface. The centre itself is excluded for inside hulls (division by zero, not representable over the reals)."
  },
  {
   "property": "C58",
   "status": "proved",
   "theorems": [
    "DOA.Props.C58_hull",
    "DOA.Props.C58_others"
   ],
   "note": "All hulls with at least one surface point; aggregates, other kinds."
  },
  {
   "property": "C59",
   "status": "partial",
   "theorems": [
    "DOA.Props.C59_aggregate_partial",
    "DOA.Props.C59_constructors_partial",
    "DOA.Props.C59_negation"
   ],
   "note": "C59_negation: constructors that get a name only leave the reference position uninitialised. C59_constructors_partial, C59_aggregate_partial: all others."
  },
  {
   "property": "C60",
   "status": "partial",
   "theorems": [
    "DOA.Props.C60_negation",
    "DOA.Props.C60_ellipsoid_partial"
   ],
   "note": "C60_negation: the margin has no influence on hulls and aggregates. C60_ellipsoid_partial: strictly decreasing for ellipsoids."
  },
  {
   "property": "C61",
   "status": "proved",
   "theorems": [
    "DOA.Props.C61_total",
    "DOA.Props.C61_uninitialised"
   ],
   "note": "Every scalar type; C61_uninitialised shows that the reference position must be initialised."
  },
  {
   "property": "C62",
   "status": "proved",
   "theorems": [
    "DOA.Props.C62_surface_point"
   ],
   "note": "All lists of intersection points, over the reals."
  },
  {
   "property": "C63",
   "status": "proved",
   "theorems": [
    "DOA.Props.C63_aggregate_inside"
   ],
   "note": "Every heap, nesting and scalar type."
  },
  {
   "property": "C64",
   "status": "proved",
   "theorems": [
    "DOA.Props.C64_surface_is_boundary"
   ],
   "note": "Over the reals; rays parallel to the y axis of an ellipse and reference points exactly on a boundary excluded (see C27)."
  },
  {
   "property": "C65",
   "status": "proved",
   "theorems": [
    "DOA.Props.C65_hull_of_disc"
   ],
   "note": "Unit ball, all resolutions and histories."
  },
  {
   "property": "C66",
   "status": "proved",
   "theorems": [
    "DOA.Props.C66_transfer",
    "DOA.Props.C66_smooth"
   ],
   "note": "Ideal doubles (infinities and NaN, no rounding, one zero): the run equals the run over the reals; with planar modulation the heading must not be parallel to the y axis of an obstacle frame (C27_negation)."
  },
  {
   "property": "C67",
   "status": "proved",
   "theorems": [
    "DOA.Props.C67_singular_stops",
    "DOA.Props.C67_at_reference"
   ],
   "note": "Ideal doubles; other obstacles arbitrary."
  },
  {
   "property": "C68",
   "status": "partial",
   "theorems": [
    "DOA.Props.C68_negation_curvature",
    "DOA.Props.C68_euler_partial",
    "DOA.Props.C68_negation_long_steps"
   ],
   "note": "Planar situation or reference point in the direction of the normal (as C37), real arithmetic; step bound 2k*t*|v| < l with l the smallest half length; C68_negation_long_steps shows that a bound is needed; C68_negation_curvature: for curvature 2 with different half lengths no step bound suffices."
  },
  {
   "property": "C69",
   "status": "proved",
   "theorems": [
    "DOA.Props.C69_loop",
    "DOA.Props.C69_loop_repulsion"
   ],
   "note": "One static ellipsoid with unit orientation about z and equal integer curvatures, agent and target in the plane, real arithmetic, short steps; with repulsion strictly outside for ever."
  },
  {
   "property": "C70",
   "status": "partial",
   "theorems": [
    "DOA.Props.C70_configuration",
    "DOA.Props.C70_negation_configuration",
    "DOA.Props.C70_negation_configuration_exists",
    "DOA.Props.C70_negation_uninitialised",
    "DOA.Props.C70_list_empty",
    "DOA.Props.C70_iterate_empty",
    "DOA.Props.C70_mixed",
    "DOA.Props.C70_wall",
    "DOA.Props.C70_straight",
    "DOA.Props.C70_negation_moving",
    "DOA.Props.C70_negation_kit",
    "DOA.Props.C70_wall_straight",
    "DOA.Props.C70_wall_program",
    "DOA.Props.C70_negation_wall",
    "DOA.Props.C70_mixed_straight",
    "DOA.Props.C70_mixed_fraction",
    "DOA.Props.C70_single",
    "DOA.Props.C70_three_d",
    "DOA.Props.C70_negation_single",
    "DOA.Props.C70_negation_three_d"
   ],
   "note": "False for the code: the programs never call env.update(), so the obstacle list is empty and the agent goes straight to its target (C70_list_empty, C70_straight, C70_wall, C70_mixed); in testKIT and testMovingObstacle it ends up inside an obstacle (C70_negation_kit, C70_negation_moving); testConfiguration walks into every obstacle on its way, for all random numbers, and plots no obstacle (C70_configuration, C70_negation_configuration); in testWall the target is inside of a wall and the agent is in the wall from iteration 265 on (C70_wall_program, C70_negation_wall); testSingleConfiguration and test3D read an uninitialised vector first, and walk straight through obstacles even if it had been 0 (C70_negation_uninitialised, C70_single, C70_three_d, C70_negation_single, C70_negation_three_d)."
  },
  {
   "property": "C71",
   "status": "partial",
   "theorems": [
    "DOA.Props.C71_outline_partial",
    "DOA.Props.C71_negation_xz"
   ],
   "note": "C71_outline_partial: the plane xy, all poses. C71_negation_xz: in the plane xz the code fixes phi = -pi/2, so that the line of every unrotated ellipsoid is a vertical segment through its centre."
  },
  {
   "property": "C72",
   "status": "partial",
   "theorems": [
    "DOA.Props.C72_negation",
    "DOA.Props.C72_no_margin_partial",
    "DOA.Props.C72_negation_boundary"
   ],
   "note": "C72_negation: the code stores point instead of safety_point, so the dashed line always equals the solid one; C72_negation_boundary: with a margin no point of it is on the safety boundary. C72_no_margin_partial: true without margin."
  },
  {
   "property": "C73",
   "status": "partial",
   "theorems": [
    "DOA.Props.C73_obstacles",
    "DOA.Props.C73_aggregate",
    "DOA.Props.C73_frame",
    "DOA.Props.C73_plane",
    "DOA.Props.C73_negation_agent",
    "DOA.Props.C73_guard",
    "DOA.Props.C73_guard_space",
    "DOA.Props.C73_obstacles_only",
    "DOA.Props.C73_negation_fresh"
   ],
   "note": "C73_obstacles, C73_aggregate, C73_frame, C73_plane, C73_guard, C73_guard_space, C73_obstacles_only hold for every heap and scalar type. C73_negation_agent: the lower of the two 3D plots shows the agent at (x,y) instead of (x,z). C73_negation_fresh: an aggregate whose hulls have not been computed cannot be drawn (uninitialised read). Hulls ignore the plane."
  },
  {
   "property": "C74",
   "status": "proved",
   "theorems": [
    "DOA.Props.C74_many",
    "DOA.Props.C74_horizon",
    "DOA.Props.C74_negation_critical"
   ],
   "note": "Static ellipsoids with unit orientation about z and equal integer curvatures, agent and target in the plane, critical distance 1 (the default), real arithmetic; C74_horizon has conditions that can be checked beforehand. C74_negation_critical: with critical distance 0 the claim fails."
  },
  {
   "property": "C75",
   "status": "partial",
   "theorems": [
    "DOA.Props.C75_speed_partial",
    "DOA.Props.C75_forward_partial",
    "DOA.Props.C75_output_partial",
    "DOA.Props.C75_negation_reference"
   ],
   "note": "Reference point in the centre, agent in the plane of the obstacle, real arithmetic; C75_output_partial carries the bound to the result of modulate_velocity for one obstacle at rest. C75_negation_reference: with a reference point elsewhere in the obstacle there is no bound."
  },
  {
   "property": "C76",
   "status": "partial",
   "theorems": [
    "DOA.Props.C76_negation_hull",
    "DOA.Props.C76_moving_partial",
    "DOA.Props.C76_forever_partial",
    "DOA.Props.C76_repaired",
    "DOA.Props.C76_negation_limit"
   ],
   "note": "One ellipsoid with orientation about z, in the plane, real arithmetic. C76_moving_partial: under a condition on every step; C76_forever_partial: under conditions on the initial data only; C76_repaired: they hold for testMovingObstacle.cpp with its own numbers once env.update() is called. C76_negation_limit: false when the speed limit is below the speed of the obstacle. C76_negation_hull: false for every moving hull with chords shorter than 1, which runs over an agent waiting in front of it."
  },
  {
   "property": "C77",
   "status": "partial",
   "theorems": [
    "DOA.Props.C77_accuracy_partial",
    "DOA.Props.C77_static_partial",
    "DOA.Props.C77_formats_partial",
    "DOA.Props.C77_negation_threshold",
    "DOA.Props.C77_negation_double"
   ],
   "note": "Ellipsoids with natural exponents, isLocal = planar = false. C77_accuracy_partial: wherever the exact run does not hit a threshold of the code and does not normalise a zero vector; C77_static_partial: this is so outside of static obstacles for planar velocities, except at the thresholds themselves; C77_formats_partial: for IEEE 754 formats. Missing: explicit error bounds, isLocal, planar, hulls. C77_negation_threshold, C77_negation_double: near the threshold 1e-4 of the half lengths the computed velocity differs by 2/5 of the speed, also for double."
  },
  {
   "property": "C78",
   "status": "partial",
   "theorems": [
    "DOA.Props.C78_distance",
    "DOA.Props.C78_normal",
    "DOA.Props.C78_negation_outward",
    "DOA.Props.C78_repulsion",
    "DOA.Props.C78_update"
   ],
   "note": "Real arithmetic, hull radii positive, wherever the inside tests are defined. C78_distance, C78_normal, C78_repulsion, C78_update. C78_negation_outward: the direction of the normal claimed is false: it points to the centre of the hull, so from outside it points into the wall (the modulation matrix does not depend on the sign)."
  },
  {
   "property": "C79",
   "status": "proved",
   "theorems": [
    "DOA.Props.C79_forever",
    "DOA.Props.C79_formats"
   ],
   "note": "One ellipsoid at rest with orientation about z and reference point in the centre, in the plane, equal integer curvatures up to 2^52, critical distance at most 1, isLocal = planar = false, pow(0, n) = 0; the conditions on the data are the structure Kept, in exact arithmetic. C79_formats: for IEEE 754 formats. The precision is not computed: whether 53 bits suffice for given data is not decided."
  },
  {
   "property": "C80",
   "status": "partial",
   "theorems": [
    "DOA.Props.C80_stands",
    "DOA.Props.C80_empty",
    "DOA.Props.C80_rigid",
    "DOA.Props.C80_program",
    "DOA.Props.C80_negation",
    "DOA.Props.C80_updated_partial",
    "DOA.Props.C80_repaired"
   ],
   "note": "C80_stands, C80_rigid: the rigid motion, for all environments, options and random numbers. False for the program: it never calls update(), so both agents move as if there were no obstacles (C80_empty, C80_program), and the guard walks into its obstacle for all moderate random numbers (C80_negation). C80_updated_partial: once update() is called the platform never enters its obstacle, whatever the guard sees, for short steps and without noise in the position of the platform; C80_repaired: so does the program with its own numbers and a speed limit of 30. Nothing is proved about the guard's own obstacle after the repair: its z coordinate is not modulated together with x and y."
  },
  {
   "property": "C81",
   "status": "partial",
   "theorems": [
    "DOA.Props.C81_total",
    "DOA.Props.C81_read",
    "DOA.Props.C81_same",
    "DOA.Props.C81_lines",
    "DOA.Props.C81_ellipsoid",
    "DOA.Props.C81_aggregate",
    "DOA.Props.C81_agent",
    "DOA.Props.C81_agent_lines",
    "DOA.Props.C81_negation_fresh",
    "DOA.Props.C81_negation_surface",
    "DOA.Props.C81_angle_axis"
   ],
   "note": "C81_lines, C81_ellipsoid, C81_aggregate, C81_agent_lines: what is shown; C81_read, C81_same: same text exactly for the same values; C81_total: never fails; C81_angle_axis: unit quaternions, real arithmetic. Digits of numbers: C89. C81_negation_surface: the surface of a hull, its resolution and side are not shown. C81_negation_fresh: an obstacle made from a name alone prints numbers that were never written."
  },
  {
   "property": "C82",
   "status": "partial",
   "theorems": [
    "DOA.Props.C82_chord_partial",
    "DOA.Props.C82_negation",
    "DOA.Props.C82_negation_aggregate",
    "DOA.Props.C82_negation_round"
   ],
   "note": "False for the code: find_closest_points returns the column after the agent and the next one, so the normal is that of the following chord; C82_negation: at every point of the surface of every flat hull (either kind) where the chord is not perpendicular to the direction to the centre, velocities turning to one side lead inside at once, to the other side outside at once; C82_negation_round: where the hull is round, every velocity turning counterclockwise leads inside; C82_negation_aggregate: the same for aggregates. C82_chord_partial: the part across the chord used is scaled by max(0, 1 - 1/d). Orientation identity, in the plane of the centre, real arithmetic."
  },
  {
   "property": "C83",
   "status": "partial",
   "theorems": [
    "DOA.Props.C83_outside_partial",
    "DOA.Props.C83_room_partial",
    "DOA.Props.C83_round",
    "DOA.Props.C83_round_room",
    "DOA.Props.C83_negation",
    "DOA.Props.C83_negation_fails"
   ],
   "note": "C83_outside_partial / C83_room_partial: any aggregate whose outside (inside) hull is flat and accompanied by a star-shaped curve S between the surface and the range of the repulsion, with explicit bounds for gain, time step and target; C83_round, C83_round_room: all bounds in closed form for hulls with 12 or more columns at equal angles. Hypotheses: orientation identity, plane z = 0, a single aggregate at rest, primitives ellipsoids, queries never past the last angle (automatic in the round case), inside: never exactly at the centre. C83_negation: for a needle in front of a coin a single iteration, however short, leads from outside into the needle, with repulsion. C83_negation_fails: straight in the negative x direction the first iteration reads past the end. Without repulsion see C82_negation_aggregate. Real arithmetic."
  },
  {
   "property": "C84",
   "status": "partial",
   "theorems": [
    "DOA.Props.C84_target_partial",
    "DOA.Props.C84_negation_behind",
    "DOA.Props.C84_negation_repelled",
    "DOA.Props.C84_ellipse_partial",
    "DOA.Props.C84_negation_behind_ellipse",
    "DOA.Props.C84_ellipse_free_partial",
    "DOA.Props.C84_negation_behind_free"
   ],
   "note": "C84_target_partial: one disc at rest in the plane (all margins included; curvature 1, reference point at its centre), with or without repulsion, with or without speed limit, explicit bounds for gain and time step: convergence from every starting point outside the disc that is not exactly behind the centre, no failure, the agent stays outside and moves away from the target only while it is repelled. C84_ellipse_partial: the same convergence for one ellipse or rounded rectangle of any aspect ratio (any integer curvature exponent, any pose in the plane, margins included, reference point at its centre) with repulsion. C84_ellipse_free_partial: ellipses with \u03ba at most 1000 without repulsion. False exactly behind the centre (C84_negation_behind, C84_negation_behind_ellipse, C84_negation_behind_free: the agent stays there for ever) and for targets within the range of the repulsion (C84_negation_repelled). Missing: rounded rectangles without repulsion, other reference points, several or moving obstacles, arbitrarily long or absurdly short time steps. Real arithmetic."
  },
  {
   "property": "C85",
   "status": "proved",
   "theorems": [
    "DOA.Props.C85_program",
    "DOA.Props.C85_cross",
    "DOA.Props.C85_optimization",
    "DOA.Props.C85_optimization_groups"
   ],
   "note": "C85_program: any scalar type, any acyclic heap of drawable (initialised) obstacles; C85_cross: real arithmetic, obstacles that share no parts; C85_optimization: the program returns normally for any scalar type; C85_optimization_groups: its groups in real arithmetic. What matplotlib does with the commands is not modelled."
  },
  {
   "property": "C86",
   "status": "partial",
   "theorems": [
    "DOA.Props.C86_current",
    "DOA.Props.C86_enclose_partial",
    "DOA.Props.C86_negation"
   ],
   "note": "C86_current: any scalar type and heap: hulls belong to the present members. C86_enclose_partial: ellipses, real arithmetic: in the direction of each column the hull reaches nine tenths of the way to the farthest (inside hull: nearest) boundary point. C86_negation: between columns and because of smoothing the hull cuts off the tips of thin members; an agent in front of such a tip is led into the member by a single step of suitable length, with and without repulsion."
  },
  {
   "property": "C87",
   "status": "partial",
   "theorems": [
    "DOA.Props.C87_exact",
    "DOA.Props.C87_usable",
    "DOA.Props.C87_defined_partial",
    "DOA.Props.C87_negation"
   ],
   "note": "C87_exact: exactly when, for every scalar type and all options; C87_usable: no uninitialised data after update(). C87_defined_partial: real arithmetic, all agents except those seen from a reference position within 2e-4 above the negative x axis. C87_negation: in every environment of unrotated ellipses, an agent straight in the negative x direction of the reference position of an aggregate makes modulate_velocity access a column past the end. Aggregates nested by the client are not covered."
  },
  {
   "property": "C88",
   "status": "proved",
   "theorems": [
    "DOA.Props.C88_safe",
    "DOA.Props.C88_update_defined",
    "DOA.Props.C88_acyclic",
    "DOA.Props.C88_cycle_crashes",
    "DOA.Props.C88_no_leak",
    "DOA.Props.C88_end",
    "DOA.Props.C88_settles",
    "DOA.Props.C88_update_loop",
    "DOA.Props.C88_loop_defined",
    "DOA.Props.C88_created"
   ],
   "note": "One environment; pointers in other environments and agents count as held by the client. Any scalar type. C88_safe, C88_update_defined: nothing reachable is destroyed or dangling; C88_acyclic, C88_cycle_crashes: adding an aggregate to itself does not return; C88_no_leak, C88_settles, C88_end: what is left; C88_update_loop, C88_loop_defined, C88_created: repeated updates. The client does not assign whole aggregates (*p = *q), which could build a cycle; weak pointers and threads are not modelled."
  },
  {
   "property": "C89",
   "status": "proved",
   "theorems": [
    "DOA.Props.C89_nearest",
    "DOA.Props.C89_ties",
    "DOA.Props.C89_accuracy",
    "DOA.Props.C89_sign",
    "DOA.Props.C89_exact",
    "DOA.Props.C89_literal",
    "DOA.Props.C89_monotone",
    "DOA.Props.C89_same",
    "DOA.Props.C89_chars",
    "DOA.Props.C89_length",
    "DOA.Props.C89_notation",
    "DOA.Props.C89_shape",
    "DOA.Props.C89_state",
    "DOA.Props.C89_agent",
    "DOA.Props.C89_ellipsoid",
    "DOA.Props.C89_special"
   ],
   "note": "Any ordered field with integer part, in particular the real and rational numbers; the conversion is transcribed from the C standard (%.6g, round half to even as in glibc). C89_nearest, C89_accuracy, C89_exact, C89_literal, C89_sign, C89_monotone, C89_same: values; C89_shape, C89_notation, C89_chars, C89_length: form; C89_state, C89_agent, C89_ellipsoid: whole texts; C89_special. Not represented: the sign of zero and NaN, the padding of transpose()."
  },
  {
   "property": "C90",
   "status": "proved",
   "theorems": [
    "DOA.Props.C90_queries",
    "DOA.Props.C90_intersects",
    "DOA.Props.C90_repulsion",
    "DOA.Props.C90_path",
    "DOA.Props.C90_in_obstacle",
    "DOA.Props.C90_velocity",
    "DOA.Props.C90_run",
    "DOA.Props.C90_run_mixed",
    "DOA.Props.C90_run_wall",
    "DOA.Props.C90_update"
   ],
   "note": "Any scalar type, acyclic memories. C90_queries, C90_intersects, C90_repulsion, C90_in_obstacle, C90_path, C90_velocity: single calls; C90_update: aggregation, for obstacles that share no primitives (reference positions of shared primitives depend on the order in which aggregates are built); C90_run, C90_run_mixed, C90_run_wall: loops. The loop of testMovingObstacle is not covered."
  },
  {
   "property": "C91",
   "status": "proved",
   "theorems": [
    "DOA.Props.C91_run"
   ],
   "note": "Any scalar type, both modes of the environment. The loop of testKIT and testConfiguration, with the call of update() these programs lack. The envelope of the agent is not an obstacle of the environment."
  },
  {
   "property": "C92",
   "status": "proved",
   "theorems": [
    "DOA.Props.C92_defined",
    "DOA.Props.C92_last_write",
    "DOA.Props.C92_position",
    "DOA.Props.C92_reference",
    "DOA.Props.C92_untouched",
    "DOA.Props.C92_commute",
    "DOA.Props.C92_constructors",
    "DOA.Props.C92_states",
    "DOA.Props.C92_ellipsoids",
    "DOA.Props.C92_orientation"
   ],
   "note": "Any scalar type, acyclic memories (a cyclic nesting recurses without end, C88_cycle_crashes). C92_defined, C92_last_write, C92_position, C92_reference, C92_untouched, C92_commute, C92_orientation (real numbers), C92_constructors, C92_states, C92_ellipsoids. set_type is protected and not modelled."
  },
  {
   "property": "C93",
   "status": "proved",
   "theorems": [
    "DOA.Props.C93_defined",
    "DOA.Props.C93_centre",
    "DOA.Props.C93_least",
    "DOA.Props.C93_order",
    "DOA.Props.C93_moves",
    "DOA.Props.C93_empty",
    "DOA.Props.C93_disc"
   ],
   "note": "C93_defined for any scalar type; C93_centre, C93_least, C93_order, C93_moves, C93_disc over the real numbers. C93_order is about radii: if two intersection points on a ray are equally far their stored angles may differ by 1e-4. C93_empty (doubles): the centre of an empty list is NaN."
  },
  {
   "property": "C94",
   "status": "partial",
   "theorems": [
    "DOA.Props.C94_entry",
    "DOA.Props.C94_slot_partial",
    "DOA.Props.C94_update",
    "DOA.Props.C94_lasts",
    "DOA.Props.C94_negation",
    "DOA.Props.C94_negation_twice"
   ],
   "note": "C94_entry, C94_lasts: names of the map, any scalar type, all histories. C94_slot_partial: names found in the list of aggregated obstacles: exactly one slot is overwritten, the name refers to the assigned obstacle if that is its own name. C94_negation: otherwise the next lookup throws. C94_update: such an assignment is undone by the next update(). C94_negation_twice: afterwards the same obstacle can be listed twice."
  },
  {
   "property": "C95",
   "status": "partial",
   "theorems": [
    "DOA.Props.C95_state_partial",
    "DOA.Props.C95_ellipsoid_partial",
    "DOA.Props.C95_weights_partial",
    "DOA.Props.C95_matrices_partial",
    "DOA.Props.C95_relative_partial",
    "DOA.Props.C95_negation",
    "DOA.Props.C95_repaired_partial",
    "DOA.Props.C95_add_partial",
    "DOA.Props.C95_list_partial",
    "DOA.Props.C95_aggregation_partial",
    "DOA.Props.C95_modulation_partial"
   ],
   "note": "All tests but one pass: C95_state_partial, C95_ellipsoid_partial, C95_weights_partial, C95_matrices_partial, C95_relative_partial, C95_modulation_partial, C95_add_partial (all values of rand()), C95_list_partial, C95_aggregation_partial. C95_negation: the test ModulateVelocity fails, since it never calls update(); C95_repaired_partial: with that call it passes."
  },
  {
   "property": "C96",
   "status": "partial",
   "theorems": [
    "DOA.Props.C96_cause",
    "DOA.Props.C96_text",
    "DOA.Props.C96_distinct_partial",
    "DOA.Props.C96_handler_partial",
    "DOA.Props.C96_quiet",
    "DOA.Props.C96_build",
    "DOA.Props.C96_negation"
   ],
   "note": "C96_cause, C96_quiet, C96_build, C96_text: exactly these calls throw, any scalar type, all heaps. C96_handler_partial, C96_distinct_partial: exceptions of the environment are caught and the text determines error and name, for names without a zero character. C96_negation: linspace throws a pointer, which is not caught as std::exception (reached through a hull with fewer than two columns); names that differ only behind a zero character give the same text."
  },
  {
   "property": "C97",
   "status": "partial",
   "theorems": [
    "DOA.Props.C97_negation_hull",
    "DOA.Props.C97_exists",
    "DOA.Props.C97_measures",
    "DOA.Props.C97_velocity_partial",
    "DOA.Props.C97_loop_partial",
    "DOA.Props.C97_negation",
    "DOA.Props.C97_negation_moving"
   ],
   "note": "Real arithmetic, any number of (super)ellipsoids with unit orientation. C97_exists, C97_measures: every valid view of every ellipsoid, distances and normals. C97_velocity_partial: coordinates with the same vertical axis (shifted, turned about it, reflected), obstacles at rest or with normals without vertical component, all options (is_local: upright ellipses). C97_loop_partial: any number of iterations, is_local off. C97_negation: in coordinates with another vertical axis a ball at rest gives another velocity. C97_negation_moving: with a moving ball, half a turn about the vertical axis is enough. C97_negation_hull: with left and right exchanged, an agent at a hull that is its own mirror image is led into it on one side and away from it on the other. Positive statements for hulls and aggregates are not given."
  },
  {
   "property": "C98",
   "status": "partial",
   "theorems": [
    "DOA.Props.C98_time_partial",
    "DOA.Props.C98_time_repulsion_partial",
    "DOA.Props.C98_time_loop_partial",
    "DOA.Props.C98_time_path_partial",
    "DOA.Props.C98_time_mixed_partial",
    "DOA.Props.C98_time_wall_partial",
    "DOA.Props.C98_time_moving_partial",
    "DOA.Props.C98_exists",
    "DOA.Props.C98_measures",
    "DOA.Props.C98_velocity_partial",
    "DOA.Props.C98_repulsion_partial",
    "DOA.Props.C98_loop_partial",
    "DOA.Props.C98_negation",
    "DOA.Props.C98_negation_local",
    "DOA.Props.C98_negation_thin",
    "DOA.Props.C98_negation_exponents",
    "DOA.Props.C98_hull",
    "DOA.Props.C98_hull_queries",
    "DOA.Props.C98_update_hull",
    "DOA.Props.C98_queries",
    "DOA.Props.C98_obstacles_partial",
    "DOA.Props.C98_obstacles_repulsion_partial",
    "DOA.Props.C98_negation_aggregate",
    "DOA.Props.C98_negation_moving_hull"
   ],
   "note": "Real arithmetic, any number of (super)ellipsoids in any motion with three equal whole exponents and half lengths above 1e-4 in both units. C98_exists, C98_measures: distances and normals. C98_velocity_partial: all units of length and time, without is_local and add_repulsion, planar or not. C98_repulsion_partial: with add_repulsion, unit of time kept, up to the cut-off of repulsions below 1e-4. C98_loop_partial: any number of iterations. C98_negation: the repulsion is a length added to a velocity. C98_negation_local: the envelope looks half a unit ahead. C98_negation_thin, C98_negation_exponents: the excluded shapes. Hulls and aggregates: C98_hull, C98_hull_queries, C98_update_hull, C98_queries (compute_from_primitives, update_hull and the queries in all units, for all hulls, primitives and nestings, undefined behaviour included). C98_obstacles_partial, C98_obstacles_repulsion_partial: modulate_velocity among obstacles of all kinds, not planar, hulls and aggregates at rest with normals longer than 1e-4 in both units. C98_negation_aggregate: the constructor of an aggregate always takes 1/2 for the minimum radius. C98_negation_moving_hull: an agent at rest on the surface of a moving hull is commanded a velocity a million times too large in millimetres. The unit of time alone (Props/Faster.lean): C98_time_partial, for obstacles of all kinds, shapes and motions, with is_local and planar modulation, without repulsion, with the same exceptions and undefined behaviour; C98_time_repulsion_partial: with the repulsion, the modulated part is converted and the repulsion stays the same vector; C98_time_loop_partial, C98_time_path_partial, C98_time_mixed_partial, C98_time_wall_partial, C98_time_moving_partial: the four control loops of the tests, any number of iterations."
  },
  {
   "property": "C99",
   "status": "partial",
   "theorems": [
    "DOA.Props.C99_queries",
    "DOA.Props.C99_tests",
    "DOA.Props.C99_update_partial",
    "DOA.Props.C99_velocity_partial",
    "DOA.Props.C99_velocity",
    "DOA.Props.C99_loops",
    "DOA.Props.C99_loops_partial",
    "DOA.Props.C99_negation"
   ],
   "note": "Real arithmetic, obstacles of all kinds and nestings. C99_queries, C99_tests: all queries, in_obstacle, exist_path, all displacements. C99_velocity, C99_loops: modulate_velocity and the loops without is_local, all displacements. C99_update_partial, C99_velocity_partial, C99_loops_partial: update and the local sight, if the displacement is horizontal or all ellipsoids are upright. C99_negation: after a vertical displacement update() no longer sees that a tilted obstacle meets another, since the samples of an ellipsoid always lie in the plane z = 0."
  },
  {
   "property": "C100",
   "status": "partial",
   "theorems": [
    "DOA.Props.C100_names",
    "DOA.Props.C100_radii_exact",
    "DOA.Props.C100_theta_exact",
    "DOA.Props.C100_radii_partial",
    "DOA.Props.C100_negation",
    "DOA.Props.C100_negation_theta",
    "DOA.Props.C100_search_partial",
    "DOA.Props.C100_negation_search"
   ],
   "note": "C100_names: the sort by name is within the contract for every range. C100_radii_exact, C100_theta_exact: a range of doubles may be sorted iff no key is NaN or no key is less than another. C100_radii_partial (ideal doubles): the ranges sorted by compute_hull are within the contract for all primitives whose half lengths in the plane are not zero, also on rays of infinite or NaN slope. C100_search_partial (reals, at most 31416 rays): exactly when the range searched in a computed hull is partitioned. C100_negation: not with a half length 0 (radii NaN). C100_negation_theta: not for the zero vector. C100_negation_search: not for the queries of a hull around a disc, whose first column is stored at the angle pi."
  },
  {
   "property": "C101",
   "status": "proved",
   "theorems": [
    "DOA.Props.C101_hull",
    "DOA.Props.C101_hull_queries",
    "DOA.Props.C101_clear",
    "DOA.Props.C101_update",
    "DOA.Props.C101_rotated",
    "DOA.Props.C101_quarter_turn",
    "DOA.Props.C101_velocity"
   ],
   "note": "C101_hull, C101_hull_queries, C101_update, C101_velocity: ideal doubles and reals end in the same way, failures included. C101_rotated: which ellipsoids meet the condition on the rays. C101_clear: hulls with positive minimum radius meet the condition of the distance query everywhere but in the centre. C101_quarter_turn: the excluded quarter turns give a hull with a dent (first ray misses the obstacle). Rounding is not modelled."
  },
  {
   "property": "C102",
   "status": "partial",
   "theorems": [
    "DOA.Props.C102_names",
    "DOA.Props.C102_distinct",
    "DOA.Props.C102_mean",
    "DOA.Props.C102_model",
    "DOA.Props.C102_primitives",
    "DOA.Props.C102_radii",
    "DOA.Props.C102_distance_partial",
    "DOA.Props.C102_level_partial",
    "DOA.Props.C102_negation"
   ],
   "note": "C102_names, C102_distinct, C102_mean: names in the same order, same centre, same list if the names differ. C102_model: the model computes one of the permitted hulls; C102_primitives: the permitted hulls do not depend on the order of the primitives. C102_radii: all permitted hulls have the same radii, for any primitives. C102_distance_partial: the same distances and tests for inside, for primitives turned about the vertical axis and 500 rays. C102_level_partial: the same hull, if moreover all primitives are at the same height. C102_negation: with discs at different heights, equally far from the reference point, the direction of the normal depends on the order. Real arithmetic."
  },
  {
   "property": "C103",
   "status": "partial",
   "theorems": [
    "DOA.Props.C103_near",
    "DOA.Props.C103_local_partial",
    "DOA.Props.C103_horizon_partial",
    "DOA.Props.C103_negation",
    "DOA.Props.C103_negation_margin"
   ],
   "note": "C103_near: an obstacle with a point nearer to the agent than max(0.1, margin)/2 minus the gap between its samples (pi/99 of the larger half length) is in sight for every velocity in the plane. C103_local_partial: under the conditions of C74 and if at every iteration margin + step + gap <= max(0.1, margin)/2, the loop with is_local and repulsion stays outside of all obstacles; C103_horizon_partial: the same with conditions that can be checked beforehand. Full statement: without the condition on the gap. C103_negation: for a wall 100 long and 0.2 thick and every small time step the agent walks straight through the wall to the target, with and without repulsion, because no sampled point is in its envelope. C103_negation_margin: an agent with margin 1/2 heading past a unit disc gets into the margin around the disc. Real arithmetic."
  },
  {
   "property": "C104",
   "status": "partial",
   "theorems": [
    "DOA.Props.C104_continuous_partial",
    "DOA.Props.C104_agent_partial",
    "DOA.Props.C104_static_partial",
    "DOA.Props.C104_run_partial",
    "DOA.Props.C104_negation_repulsion",
    "DOA.Props.C104_negation_small_angle",
    "DOA.Props.C104_negation_hull"
   ],
   "note": "Real arithmetic, any number of (super)ellipsoids in any motion, without is_local and planar. C104_continuous_partial: along any filter the velocities commanded in situations that tend to a limit tend to the velocity commanded in the limit, if no comparison of the code is a tie there (Steady). C104_agent_partial: the same for the agent alone, as epsilon and delta. C104_static_partial: for obstacles at rest and a desired velocity in the plane (or none) only the numerical thresholds of the code are left: critical distance with several obstacles, 1e-4 for the angle and the tangent, 1.1 and 1e-4 for the repulsion. C104_run_partial: n iterations of the control loop. Full statement: also at the thresholds. C104_negation_repulsion: at distance 1.1 of a unit ball the velocity jumps by more than 1.9. C104_negation_small_angle: at a deflection of 1e-4 it jumps by more than 1e-9. C104_negation_hull: at the directions of the columns of a hull it jumps by more than 1/4, and with it the test for inside."
  },
  {
   "property": "C105",
   "status": "partial",
   "theorems": [
    "DOA.Props.C105_far_partial",
    "DOA.Props.C105_static_partial",
    "DOA.Props.C105_alone",
    "DOA.Props.C105_negation_power"
   ],
   "note": "Real arithmetic, (super)ellipsoids (exponent 1, or balls, for the obstacle that leaves), without is_local and planar. C105_far_partial: the obstacle (at rest or not) is carried along a ray in any direction, at any place of the list, all other obstacles arbitrary; the result tends to the one without it, as epsilon and S, with and without repulsion, for every positive power. C105_static_partial: among obstacles at rest, leaving in its own x-y plane, only the threshold for small angles is left as a hypothesis. C105_alone: a single obstacle, no condition on the agent. Missing: situations in which the result for the other obstacles is a tie (there the code jumps, C104_negation_small_angle), and directions with |n x z| exactly 1E-4. False for powers that are not positive: C105_negation_power (power 0, a ball at any distance behind the one ahead changes the speed by more than 1/16)."
  },
  {
   "property": "C106",
   "status": "partial",
   "theorems": [
    "DOA.Props.C106_leaves_partial",
    "DOA.Props.C106_stays_partial",
    "DOA.Props.C106_leaves_explicit_partial",
    "DOA.Props.C106_negation",
    "DOA.Props.C106_negation_between",
    "DOA.Props.C106_negation_hull"
   ],
   "note": "Real arithmetic, one ellipsoid at rest (any exponent) upright in the plane, with repulsion, not local, not planar. C106_leaves_partial: with 1 - f0/d >= eta > 0 (f0, d the distance function at the reference point and at the agent) the agent is outside after any n with n dt gamma eta > 1 - d, for all targets and step lengths (gamma: the part of the speed that the limit of the speed leaves, 1 without limit); C106_stays_partial: and outside after n iterations, under the conditions of C69; C106_leaves_explicit_partial: reference point at the centre, all conditions explicit, out within the time (1 - d)/gamma. Missing: several obstacles (for aggregates the inside is meant as a room: C83_room_partial). False for hulls with or without repulsion: C106_negation_hull (every hull, every agent inside with its target on the line through the centre). False without repulsion: C106_negation (every obstacle, every agent inside whose target is on the line through the reference point stays at its place for ever); false for two obstacles with repulsion: C106_negation_between (in the middle of two overlapping balls the repulsions cancel, the agent stays for ever)."
  },
  {
   "property": "C107",
   "status": "partial",
   "theorems": [
    "DOA.Props.C107_copies_partial",
    "DOA.Props.C107_planar_partial",
    "DOA.Props.C107_negation_repulsion",
    "DOA.Props.C107_negation_others"
   ],
   "note": "C107_copies_partial: a list that consists of any number of copies of one obstacle of any kind (ellipsoid, hull, aggregate; at rest or moving), with or without is_local, without planar modulation and repulsion: exactly the same velocity, or the same failure. C107_planar_partial: copies of an ellipsoid with planar modulation. False otherwise: C107_negation_others (the other obstacles lose weight: an obstacle listed twice next to another one changes the speed from 26/33 to 44/57); C107_negation_repulsion (the repulsion is doubled). Real arithmetic."
  },
  {
   "property": "C108",
   "status": "proved",
   "theorems": [
    "DOA.Props.C108_velocity",
    "DOA.Props.C108_queries",
    "DOA.Props.C108_run",
    "DOA.Props.C108_run_mixed",
    "DOA.Props.C108_run_wall",
    "DOA.Props.C108_run_moving",
    "DOA.Props.C108_turning",
    "DOA.Props.C108_guard"
   ],
   "note": "Generic in the number type (real numbers, doubles, rounding of any kind). C108_velocity, C108_queries: single calls; C108_run, C108_run_mixed, C108_run_wall, C108_run_moving: the loops, for two agents that differ in orientation and angular velocity, with the same failures, and neither agent is turned; C108_turning: a loop that calls set_orientation and set_angular_velocity with arbitrary values in every iteration has the same path; C108_guard: the guard program for all random numbers, if the orientations of the platforms agree."
  },
  {
   "property": "C109",
   "status": "partial",
   "theorems": [
    "DOA.Props.C109_code_partial",
    "DOA.Props.C109_members_partial",
    "DOA.Props.C109_distinct_partial",
    "DOA.Props.C109_found_partial",
    "DOA.Props.C109_negation",
    "DOA.Props.C109_negation_taken"
   ],
   "note": "For names without the separator '_' (the empty name included), all heaps, histories and modes: C109_code_partial (the names of the members can be read off the name), C109_members_partial, C109_distinct_partial (different entries of the list have different names), C109_found_partial (every entry of the list is found by its name). False in general: C109_negation (groups {a, b_c} and {a_b, c} are both called aggregate_a_b_c and one of them cannot be reached by any name), C109_negation_taken (an obstacle called aggregate_a_b hides the aggregate of a and b)."
  },
  {
   "property": "C110",
   "status": "partial",
   "theorems": [
    "DOA.Props.C110_plain",
    "DOA.Props.C110_apart_partial",
    "DOA.Props.C110_meet_partial",
    "DOA.Props.C110_members_partial",
    "DOA.Props.C110_negation"
   ],
   "note": "C110_plain: without aggregation, any scalar type, all histories before, all calls in between (thrown exceptions caught): the whole state is the same. C110_apart_partial: with aggregation, if no two of the obstacles involved meet and they keep their names. C110_meet_partial, C110_members_partial: with aggregation, obstacles that meet in any way, coming and going: same map, equal aggregates at the same places of the list, same lone obstacles, members of aggregates unchanged; only the reference position of obstacles left alone by both updates can differ. C110_negation: with aggregation, a disc that met another one keeps the reference position of the aggregate after the other one is removed; same names, same list, but the agent is pushed aside where it was slowed down before. Missing: only what is false (reference positions of lone obstacles)."
  },
  {
   "property": "C111",
   "status": "partial",
   "theorems": [
    "DOA.Props.C111_queries",
    "DOA.Props.C111_velocity",
    "DOA.Props.C111_run",
    "DOA.Props.C111_run_moving",
    "DOA.Props.C111_groups_partial",
    "DOA.Props.C111_centres_partial",
    "DOA.Props.C111_environment",
    "DOA.Props.C111_apart_partial",
    "DOA.Props.C111_negation"
   ],
   "note": "C111_queries, C111_velocity, C111_run, C111_run_moving: generic in the number type, obstacles of all kinds, nested aggregates included: two heaps that are equal up to names give the same answers, velocities and runs (loops of testKIT.cpp, testConfiguration.cpp, testWall.cpp, testMovingObstacle.cpp) for the same list, to the last bit, or the same failure. C111_environment: without aggregation, real arithmetic, any names and any order of registration. C111_apart_partial: with aggregation, if no two obstacles meet. C111_groups_partial: with aggregation, all scalar types, obstacles that meet in any way: if the intersection test is symmetric among them, the same obstacles are put into one aggregate and the same ones stay alone. C111_centres_partial: and, in real arithmetic, corresponding aggregates have the same members, centre and reference position. C111_negation: with aggregation two overlapping ellipsoids become one aggregate, or stay two obstacles, depending on which name comes first (the intersection test is not symmetric, C29_negation). Missing: the hulls of the aggregates, hence the velocity around them (the smoothing of a hull reads columns left by the first pair that was added, and which pair is first depends on the names)."
  },
  {
   "property": "C112",
   "status": "partial",
   "theorems": [
    "DOA.Props.C112_alone_partial",
    "DOA.Props.C112_completes_partial",
    "DOA.Props.C112_order_partial",
    "DOA.Props.C112_moving_partial",
    "DOA.Props.C112_negation"
   ],
   "note": "C112_alone_partial, C112_completes_partial, C112_order_partial: every scalar type, any number of agents and any schedule, obstacles of all kinds, is_local and repulsion included: every agent ends in the state it reaches alone, all get through if each one does alone, permuted schedules give the same states, and no object but the envelopes changes. Agents may share an envelope (as after a copy). C112_moving_partial: the setters of obstacles may be called between the turns; leaving out all turns of the other agents changes neither the agent nor any obstacle. Missing: planar modulation is allowed only where there are no ellipsoids; no update() between the turns. C112_negation: with planar modulation in the loop of one agent, the reference position of a disc is moved and another agent, which does not use it, is pushed aside where it goes straight ahead alone."
  },
  {
   "property": "C113",
   "status": "partial",
   "theorems": [
    "DOA.Props.C113_velocity_partial",
    "DOA.Props.C113_repulsion_partial",
    "DOA.Props.C113_loop_partial",
    "DOA.Props.C113_mixed_partial",
    "DOA.Props.C113_wall_partial",
    "DOA.Props.C113_product_partial",
    "DOA.Props.C113_negation"
   ],
   "note": "Real arithmetic, all kinds of obstacles, all memory at rest, is_local and planar modulation as one likes, without repulsion. C113_velocity_partial: modulate_velocity is positively homogeneous, with the same shifts, exceptions and undefined behaviour. C113_repulsion_partial: with add_repulsion the modulated part is homogeneous and the repulsion stays the same vector at all speeds. C113_loop_partial: the control loop with gain, largest speed and time step converted. C113_mixed_partial, C113_wall_partial: the loops of test3D.cpp and testWall.cpp. C113_product_partial: without limit of the speed and from rest the path depends on gain * dt only. C113_negation: with add_repulsion an agent at its target on the surface of a ball gets to (3,0,0) with gain 1 and step 1, but to (2,0,0) with gain 2 and step 1/2."
  },
  {
   "property": "C114",
   "status": "proved",
   "theorems": [
    "DOA.Props.C114_memoryless",
    "DOA.Props.C114_wall"
   ],
   "note": "C114_memoryless: for every scalar type, all lists of stages (iterations of the loops of testKIT.cpp, test3D.cpp and testWall.cpp) without planar modulation as pasts, and any further iterations of the loops of testKIT.cpp and test3D.cpp, planar or not, as the future. C114_wall: the loop of testWall.cpp as the future. Exceptions and undefined behaviour are the same too. With planar modulation the obstacles remember the last line of sight (C112_negation)."
  }
 ]
}