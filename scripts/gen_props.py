import json
P=[]
def p(title, statement, quantifier, why, *anchors):
    P.append(dict(id="C%02d"%(len(P)+1), title=title, statement=statement, quantifier=quantifier, why_tests_cant=why, anchors=list(anchors)))

ENV="src/Environment.cpp"; AGG="src/Utils/ObstacleGeneration/Aggregation.cpp"; AGO="src/Obstacle/Aggregate.cpp"
AGH="include/DynamicObstacleAvoidance/Obstacle/Aggregate.hpp"
MT="src/Utils/MathTools.cpp"; MTH="include/DynamicObstacleAvoidance/Utils/MathTools.hpp"
PC="src/State/Pose.cpp"; PH="include/DynamicObstacleAvoidance/State/Pose.hpp"
EL="src/Obstacle/Ellipsoid.cpp"; OB="src/Obstacle/Obstacle.cpp"; OBH="include/DynamicObstacleAvoidance/Obstacle/Obstacle.hpp"
MO="src/Modulation.cpp"; AC="src/Agent.cpp"; AH="include/DynamicObstacleAvoidance/Agent.hpp"; HU="src/Obstacle/StarShapeHull.cpp"
HUH="include/DynamicObstacleAvoidance/Obstacle/StarShapeHull.hpp"

p("Environment is a map from names to obstacles",
  "Starting from an empty Environment, after any sequence of add_obstacle / remove_obstacle / update / set_aggregated / operator[] calls, env[k] returns the obstacle most recently added under name k and not removed since; add_obstacle throws ObstacleAlreadyExistsException exactly when a live obstacle was added under that name, remove_obstacle throws ObstacleNotInEnvironmentException exactly when none was; a throwing call changes nothing.",
  "every history of calls, every set of names and obstacles", "the histories are unbounded; a test checks a few", ENV+": add_obstacle, remove_obstacle, operator[]")
p("Obstacle list is the snapshot taken by the last update, in name order",
  "get_obstacle_list() only changes when update() runs; with aggregation off, right after update() it holds every obstacle present in the environment exactly once, in strictly increasing order of the names they were added under, and nothing else. In particular, obstacles added without a following update() are invisible to modulate_velocity.",
  "every history of calls", "depends on the whole history and on the order of arbitrary names", ENV+": update", "include/DynamicObstacleAvoidance/Environment.hpp: get_obstacle_list", MO+": modulate_velocity")
p("Name resolution of operator[] in aggregated mode",
  "env[k] resolves to the obstacle added under k if there is one; otherwise, only in aggregated mode, to the first element of the current obstacle list whose current name is k; otherwise it throws. A user expects that a removed obstacle is no longer reachable by name.",
  "every environment state and every name", "all combinations of map, list, names and flags", ENV+": operator[]")
p("update() does not move or reshape obstacles",
  "update() leaves name, pose, velocities, safety margin, axis lengths and curvature of every obstacle unchanged; the only thing it may change in an existing obstacle is the reference position, and only for obstacles that end up inside an aggregate.",
  "every environment, every obstacle, with or without aggregation", "a frame condition over all fields of all objects", ENV+": update", AGG+": aggregate_obstacles", AGH+": set_reference_position")
p("Aggregation partitions the obstacles",
  "aggregate_obstacles(list) returns a list in which every input obstacle occurs exactly once: either as itself or as one primitive of exactly one aggregate; no obstacle is lost, duplicated or invented; every aggregate has at least two primitives; un-aggregated obstacles come after the aggregates, in input order.",
  "every list of obstacles and every outcome of the pairwise intersection tests", "the merge/renumber code has a case per history of merges", AGG+": aggregate_obstacles")
p("Aggregates are the connected components of the intersection relation",
  "Two input obstacles end up in the same aggregate if and only if they are linked by a chain of inputs in which each consecutive pair (earlier in the list tested against later) reports is_intersecting.",
  "every list of obstacles, every intersection relation, chains of any length", "needs all graphs and all chain lengths", AGG+": aggregate_obstacles")
p("Aggregation never indexes out of bounds",
  "aggregate_obstacles performs no out-of-range access to its index vector, to the deque of aggregates or in its erase call, and it terminates, for every list of live obstacles.",
  "every list of obstacles and every outcome of intersection tests", "out-of-range access is undefined behaviour, not a test failure", AGG+": aggregate_obstacles")
p("Aggregate names are canonical",
  "The name of an aggregate is \"aggregate\" followed by \"_name\" for each primitive in increasing name order; so the name and the primitive order depend only on the set of members, not on the order in which they were added.",
  "every collection of primitives, every insertion order", "n! insertion orders", AGO+": add_primitive, Aggregate(list)")
p("Aggregate centre and shared reference point",
  "After primitives are added, the aggregate's position and reference position are the arithmetic mean of its primitives' positions, and every primitive (at every nesting level) has that same reference position. set_reference_position on an aggregate moves the reference of all its primitives.",
  "every non-empty collection of primitives, any sequence of add_primitive / set_reference_position", "unbounded number of primitives and nesting", AGO+": add_primitive, update_center_position", AGH+": set_reference_position")
p("The reference point of an obstacle belongs to it after update",
  "After update(), an obstacle that is not part of an aggregate has a reference point that lies inside it (the algorithm needs this for the modulation to be well defined), whatever aggregates it belonged to before.",
  "every history of moves and updates", "depends on past aggregation, i.e. on histories", AGG, AGH+": set_reference_position", AGO+": add_primitive")
p("Aggregates keep the motion of their members",
  "If obstacles that move (non-zero linear or angular velocity) are aggregated, the modulation still accounts for their motion.",
  "every set of obstacles with every velocity", "all velocities, all groupings", AGO+": add_primitive", MO+": compute_relative_velocities")
p("update() is idempotent",
  "Calling update() a second time without changes in between yields the same obstacle list: same order, same names, same membership, same centres and the same reference points.",
  "every environment", "all environments", ENV+": update", AGG)
p("linspace is an exact even partition",
  "linspace(start,end,num) with num >= 2 returns exactly num values, the first is start, the last is end, the i-th is start + i*(end-start)/(num-1); the values are increasing when start < end; with num < 2 it throws.",
  "all start, end, num", "unbounded num and real endpoints", MT+": linspace")
p("gridspace enumerates the full grid row by row",
  "gridspace returns nx*ny points; the point at index i*ny+j is (x_i, y_j) with x and y the two linspaces; no cell is left default-initialised and no write is out of range.",
  "all corners and all grid sizes >= 2", "unbounded sizes", MT+": gridspace")
p("Polar conversion round-trips",
  "polar_to_cartesian(cartesian_to_polar(p)) = p for every non-zero p, and cartesian_to_polar(polar_to_cartesian(r,theta,phi)) = (r,theta,phi) for r>0, 0<theta<pi, -pi<phi<=pi.",
  "all points / all polar coordinates", "a continuum of inputs", MT+": cartesian_to_polar, polar_to_cartesian")
p("find_closest_points returns usable neighbouring indices",
  "For surface points sorted by angle, the first index returned is the smallest one whose angle is >= the query angle, the second is its cyclic successor, and both are valid column indices.",
  "all matrices with sorted row, all query points", "all sorted lists and all real queries", MT+": find_closest_points")
p("sorted_cols_by_theta sorts without losing columns",
  "The result has exactly the same multiset of columns as the input and the second coordinate is non-decreasing from left to right.",
  "all matrices", "all sizes", MT+": sorted_cols_by_theta, compare_theta")
p("rand_float stays in range; sign is the signum",
  "rand_float(a,b) lies between min(a,b) and max(a,b) and reaches both ends; sign(v) is -1, 0 or 1 according to the sign of v.",
  "all a, b, all values rand() may return, all v", "rand() is random; range is a universal claim", MT+": rand_float", MTH+": sign")
p("Pose composition is composition of the rigid motions",
  "For poses p, q and a vector v: (p*q)*v = p*(q*v), composition is associative, the default Pose is neutral, and p *= q agrees with p*q (also when q is p itself).",
  "all poses with unit orientation and all vectors", "a continuum of inputs", PH+": operator*, operator*=")
p("Pose orientation is always a unit quaternion",
  "Whatever position and non-zero quaternion a Pose is built from, and after any sequence of set_orientation / operator*= / inverse, its orientation has norm 1 (so that it is a rotation), and a constructor yields w >= 0.",
  "all non-zero quaternions, all sequences of operations", "all quaternions and all histories", PC+": Pose(position, orientation), Pose(7 doubles)", PH+": set_orientation")
p("Pose inverse undoes the pose and poses preserve distances",
  "p.inverse()*(p*v) = v = p*(p.inverse()*v), p.inverse().inverse() = p, (p*q).inverse() = q.inverse()*p.inverse(), and |p*v - p*w| = |v - w|.",
  "all poses with unit orientation, all vectors", "a continuum of inputs", PH+": inverse, operator*")
p("Ellipsoid distance is the (super)ellipsoid level function",
  "For lengths (axis + obstacle margin + extra margin) above 1e-4 the distance is sum over axes of (coordinate/length)^(2*curvature) in the obstacle frame: it is 0 exactly at the centre, < 1 exactly in the interior of the inflated (super)ellipsoid, 1 exactly on its surface, > 1 outside, and is never negative.",
  "all obstacles with positive integer curvature, all points, all margins", "a continuum of inputs", EL+": compute_distance_to_point", OB+": compute_distance_to_agent")
p("Distance, normal and inside tests do not depend on the world frame",
  "Moving an ellipsoid and the query point (or agent) by the same rigid motion leaves compute_distance_to_point, compute_normal_to_agent (expressed in the obstacle frame) and point_is_inside unchanged.",
  "all rigid motions, obstacles, points", "a continuum of inputs", EL, PH)
p("Safety margins only make obstacles larger",
  "Increasing the obstacle's axis lengths or safety margin or the agent's margin never increases the reported distance, and never turns an inside point into an outside one.",
  "all margins, points, ellipsoids", "monotonicity over a continuum", EL+": compute_distance_to_point, point_is_inside")
p("Ellipsoid normal is the outward unit surface normal",
  "compute_normal_to_agent returns a unit vector in the obstacle frame, parallel to the gradient of the distance function at the agent and pointing away from the centre, at every agent position other than the centre.",
  "all ellipsoids, curvatures, agent positions", "a continuum of inputs, a statement about derivatives", EL+": compute_normal_to_agent")
p("point_is_inside agrees with the distance",
  "point_is_inside(p) is true if and only if compute_distance_to_point(p, 0) <= 1.",
  "all ellipsoids, curvatures and points", "a continuum of inputs", EL+": point_is_inside, compute_distance_to_point")
p("Line intersection returns exactly the two surface points of the line",
  "compute_interesection_points(x1,x2) reports an intersection exactly when the line through x1 and x2, projected to the obstacle's x-y plane, meets the inflated ellipse; the two returned points then lie on that line and on the ellipse boundary, and are all the points with this property.",
  "all ellipsoids with positive lengths, all pairs of points", "a continuum including vertical lines", EL+": compute_interesection_points")
p("Sampled points lie on the obstacle boundary",
  "sample_from_parameterization(n, margin) returns n points which all lie on the boundary of the ellipse (with or without margin) in the x-y plane, starting and ending at the same point.",
  "all n >= 2, all ellipsoids rotated about z", "all n and a continuum of poses", EL+": sample_from_parameterization")
p("Intersection test is exact for ellipsoids",
  "e1.is_intersecting(e2) is true exactly when the two inflated ellipses have a point in common; in particular it is symmetric.",
  "all pairs of ellipsoids", "a continuum of pairs; sampling misses are measure-small", EL+": is_intersecting_ellipsoid", OB+": is_intersecting")
p("Intersection test between obstacle kinds is symmetric",
  "a.is_intersecting(b) = b.is_intersecting(a) whatever the kinds of a and b (ellipsoid, aggregate).",
  "all pairs of obstacles of all kinds", "all pairs", OB+": is_intersecting, is_intersecting_aggregate, is_intersecting_ellipsoid")
p("Ellipsoid area is the surface area of spheres",
  "area() of a sphere of radius r is 4*pi*r^2; area is positive and increases when an axis grows.",
  "all radii and axis lengths", "a continuum", EL+": area")
p("Distance grows along rays from the centre",
  "Scaling the offset from the obstacle centre by s >= 0 multiplies the distance by s^(2*curvature) (uniform curvature); so the distance is strictly increasing along rays and unbounded.",
  "all rays, scales, ellipsoids", "a continuum", EL+": compute_distance_to_point")
p("Obstacle weights form a convex combination focused on critical obstacles",
  "weight_obstacles returns one weight per obstacle, all >= 0, summing to 1. If some distance is <= critical_distance, exactly those obstacles share the weight equally and all others get 0; otherwise all weights are positive, equal distances get equal weights and a strictly nearer obstacle gets a strictly larger weight (weight_power > 0).",
  "all non-empty distance arrays, critical distances, weight powers", "unbounded arrays of reals", MO+": weight_obstacles")
p("Eigenvalues slow down towards and speed up around the obstacle",
  "compute_diagonal_eigenvalues(d): for d <= 1 it is (0,2,2); for d > 1 the reference eigenvalue lies in (0,1) and increases with d, the two tangent eigenvalues are equal, lie in (1,2) and decrease; reference + tangent = 2; as d grows they tend to 1.",
  "all distances and positive reactivity factors", "a continuum and a limit", MO+": compute_diagonal_eigenvalues")
p("Orthogonal basis is orthonormal",
  "The second matrix returned by compute_basis_matrices is an orthonormal basis whose first column is the normal vector.",
  "all unit normals", "a continuum", MO+": compute_basis_matrices")
p("Modulation matrix acts as designed on reference and tangent directions",
  "compute_modulation_matrix returns a matrix that scales the world-frame reference direction (from reference point to agent) by 1-1/d, and the tangent directions by 1+1/d (by 0 and 2 for d<=1); it is invertible for d > 1 and tends to the identity far away.",
  "all ellipsoids, orientations, reference points and agents in regular position", "a continuum", MO+": compute_modulation_matrix, compute_basis_matrices")
p("Impenetrability: no velocity into the obstacle at its surface",
  "When the agent is on (or inside) the surface of an obstacle, the modulated velocity M*v has zero component along the surface normal, and outside the component is the original one scaled by 1-1/d >= 0; for every input velocity and every reference point.",
  "all ellipsoids, reference points, agents, velocities", "a continuum; safety claim over all states", MO+": compute_modulation_matrix", EL+": compute_normal_to_agent")
p("An agent that starts outside never enters (continuous time)",
  "If the agent's position follows x'(t) = modulated velocity of an arbitrary continuous desired velocity around a single static planar obstacle, and it starts with distance > 1, then the distance stays > 1 for all time.",
  "all trajectories, all desired velocities, all time", "infinite time horizon and all trajectories", MO+": modulate_velocity", EL)
p("A single static obstacle gives exactly M*v",
  "With exactly one, static, obstacle and no repulsion, modulate_velocity returns the modulation matrix applied to the agent velocity (the angle-space interpolation is the identity for one obstacle), up to the documented small-angle cut-off.",
  "all ellipsoids, agents and planar velocities", "a continuum through acos/sin/cos round trips", MO+": modulate_velocity")
p("No obstacles in sight means no modulation",
  "modulate_velocity returns the agent's velocity unchanged when the obstacle list is empty, and, with is_local, when the envelope of the agent intersects none of the listed obstacles.",
  "all agents, environments and flags", "all environments", MO+": modulate_velocity", OB+": is_intersecting(list)")
p("modulate_velocity never returns NaN",
  "Whatever the obstacles, distances and numerical degeneracies, the returned velocity contains no NaN (unless the agent's own velocity, returned unmodulated, does).",
  "all inputs including infinities, NaN and singular matrices", "singular configurations have measure zero", MO+": modulate_velocity")
p("Repulsion acts only near the obstacle and pushes outward",
  "generate_repulsion is the zero vector when the distance is >= the threshold; below it, for an ellipsoid, it equals (2/distance) times the vector from the reference point to the agent: it points away from the reference point and gets stronger as the distance decreases.",
  "all obstacles, agents, thresholds", "a continuum", OB+": generate_repulsion, get_repulsion_factor", EL+": compute_repulsion_vector", AGO+": compute_repulsion_vector")
p("Speed of the modulated velocity is the weighted mean of the individual speeds",
  "For static obstacles and a planar velocity the norm of the returned velocity is the weighted mean of |M_i*v| (up to the small-angle cut-off), hence at most twice the input speed for circular obstacles with centred reference.",
  "any number of obstacles, all velocities", "unbounded number of obstacles", MO+": modulate_velocity")
p("Obstacle motion is compensated",
  "compute_relative_velocities subtracts from the agent velocity the weighted sum of the obstacles' velocities at the agent (linear + angular x offset), each attenuated by exp(-(max(1,d)-1)); the two returned vectors add up to the agent velocity.",
  "any number of obstacles with any velocities", "unbounded lists, a continuum", MO+": compute_relative_velocities")
p("Avoidance works for every direction of motion",
  "Impenetrability of the final velocity holds for every agent velocity, in particular for motion along the z axis.",
  "all velocities including vertical", "the failing set has measure zero", MO+": compute_dynamical_system_frame, modulate_velocity")
p("Result does not depend on the order of the obstacles",
  "modulate_velocity gives the same velocity for every ordering of the obstacle list (hence for every naming of the obstacles).",
  "all permutations of all obstacle lists", "n! orders", MO+": modulate_velocity", ENV+": update")
p("Planar modulation only shifts reference points, to the middle of the chord",
  "modulate_velocity with planar_modulation changes nothing but reference positions; a shifted reference position is the midpoint of the chord cut by the heading line, lies in the obstacle, and an obstacle whose ellipse the heading line misses is unchanged. Without planar_modulation no obstacle is changed at all.",
  "all obstacles, agents, headings", "frame condition and a continuum", OB+": shift_reference_point", MO+": modulate_velocity")
p("Planar situations stay planar",
  "If the agent, its velocity, and all (z-rotated) obstacles, their reference points and velocities lie in the plane z=0, the modulated velocity has zero z component.",
  "all planar configurations with any number of obstacles", "unbounded number of obstacles", MO+": modulate_velocity")
p("Agent envelope follows the agent",
  "After any sequence of pose/velocity setters the envelope is the ellipsoid centred 0.5 ahead of the agent along its velocity, with the matching half lengths and heading, and it contains the agent's position.",
  "all histories of setters", "histories", AC+": update_envelope", AH)
p("Safety margin changes take effect immediately",
  "After set_safety_margin the envelope used by local modulation reflects the new margin.",
  "all histories of setters", "histories", AH+": set_safety_margin", AC+": update_envelope")
p("Copies of agents are usable and independent",
  "Copying an agent (copy constructor, assignment, transformed()) gives an agent on which every operation is defined and whose later changes do not affect the original.",
  "all agents, all later histories", "undefined behaviour and aliasing are not test failures", AC+": Agent(const Agent&)", AH+": transformed")
p("in_obstacle is true whenever the agent is deep inside, and only when its safety disc touches",
  "in_obstacle(o) is true if the agent's position is inside an ellipsoid o, and if it is true some point of o lies within max(0.1, margin) of the agent in the x-y plane.",
  "all agents and ellipsoids", "a continuum", AC+": in_obstacle")
p("exist_path is the separation test",
  "exist_path(target, obstacles) is false exactly when some closed obstacle contains exactly one of agent and target; so it is symmetric in agent and target, true for an empty list and independent of the obstacle order.",
  "all lists of obstacles, agents and targets", "unbounded lists", AC+": exist_path")
p("Hull radii respect the minimum radius",
  "After compute_from_primitives every polar surface point of a hull has radius at least min_radius.",
  "all primitives, resolutions, previous hull contents", "histories and unbounded resolution", HU+": compute_from_primitives")
p("A hull depends only on its primitives, not on its history",
  "compute_from_primitives gives the same hull whatever the hull held before; in particular calling update_hull twice equals calling it once.",
  "all previous contents", "histories", HU+": compute_from_primitives", AGO+": update_hull")
p("Hull queries are defined for every point",
  "compute_distance_to_point, compute_normal_to_agent and point_is_inside of a computed hull read only existing surface points, for every query point.",
  "all hulls, all points", "out-of-range column access is undefined behaviour on a thin set of angles", HU, MT+": find_closest_points")
p("Hull distance is consistent with inside test",
  "For an outside hull distance < 1 exactly when point_is_inside; for an inside hull distance > 1 exactly when point_is_inside; both are 1 at the surface.",
  "all hulls and points", "a continuum", HU+": compute_distance_to_point, point_is_inside")
p("is_closed means every direction is blocked",
  "is_closed() of a hull holds exactly when every surface radius exceeds 1.2*min_radius; an aggregate is closed exactly when its outside hull is; every other obstacle is closed.",
  "all hulls", "all resolutions and radii", HU+": is_closed", AGH+": is_closed", OBH+": is_closed")
p("Constructors leave no uninitialised state",
  "Every public constructor of an obstacle sets position, reference position, margins and shape so that all queries are defined.",
  "all constructors and arguments", "reading uninitialised memory is undefined behaviour", OB+": constructors", EL+": constructors")
p("The agent's safety margin is honoured by every obstacle kind",
  "compute_distance_to_agent takes the agent's safety margin into account: a larger margin gives a smaller distance, also for aggregates.",
  "all obstacles, agents, margins", "a continuum", HU+": compute_distance_to_point", AGO+": compute_distance_to_point")
p("modulate_velocity returns normally on initialised ellipsoids",
  "For every list of live ellipsoids with initialised reference positions and every agent with an envelope, modulate_velocity throws nothing and has no undefined behaviour, for all option values and all arithmetic (including NaN and infinities), and leaves the obstacles initialised.",
  "all lists, agents, options, all scalar types", "unbounded lists and all double values", MO+": modulate_velocity")
p("The surface point of a ray is the farthest or nearest intersection",
  "For each ray, the hull uses among the intersection points on the ray the farthest (outside hull) or nearest (inside hull) one, adds or subtracts the safety margin and clips at min_radius; without such a point the radius is min_radius plus or minus the margin, clipped.",
  "all lists of intersection points, angles, margins, both kinds", "unbounded lists, a continuum of values", HU+": compute_from_primitives lines 66-86")
p("An aggregate contains exactly what its outside hull or one of its primitives contains",
  "point_is_inside of an aggregate is true exactly when the outside hull or at least one primitive (at any nesting level) contains the point.",
  "all heaps, nestings, points", "unbounded nesting", AGO+": point_is_inside")
p("The hull follows the boundary of the union of the primitives",
  "For ellipses at the height of the reference point, the surface point of a ray before smoothing is where the ray leaves the union of the (inflated) ellipses for the last time (outside hull), or meets one of the boundaries for the first time (inside hull).",
  "all lists of ellipses, rotations, reference points, angles", "a continuum of configurations", HU+": compute_from_primitives", EL+": compute_interesection_points")
p("The hull of a disc is the disc",
  "Computed repeatedly from a ball with the centre as reference point, all radii of a hull converge to the radius of the ball (or min_radius if larger), the error shrinking by the factor 19 with every computation.",
  "all resolutions, centres, numbers of computations, both kinds", "unbounded resolution and histories", HU+": compute_from_primitives")
p("No exceptional values on regular inputs",
  "For ellipsoids with integer curvature, nonzero half lengths and a nonsingular reference basis (in particular whenever the reference point is nearer to the centre than the agent), modulate_velocity in double arithmetic with infinities and NaN (but no rounding) returns a finite velocity, equal to the one of real arithmetic.",
  "all lists of obstacles, agents, options", "a continuum of inputs; exceptional values appear on null sets", MO+": modulate_velocity", EL+": all queries")
p("A singular configuration stops the agent",
  "If the reference basis of any obstacle is exactly singular (for example the agent is exactly at the reference point), modulate_velocity returns exactly the zero velocity, whatever the other obstacles are.",
  "all heaps, agents, options, other obstacles with arbitrary (also non-finite) data", "null set of inputs, arbitrary other obstacles", MO+": modulate_velocity NaN guard")
p("Short Euler steps do not penetrate",
  "Moving by explicit Euler steps of the modulated velocity around one ellipsoid, the agent never enters the obstacle, for every number of steps, provided each step t*|v| is short compared with the half lengths.",
  "all numbers of steps, initial positions, velocities (changing with time), step sizes below the bound, obstacles", "unbounded histories and a continuum of inputs; the modulation is only impenetrable for continuous time", MO+": compute_modulation_matrix", EL)
p("The control loop keeps the agent out of the obstacle",
  "The loop set_linear_velocity / modulate_velocity / limit the speed / set_position around one obstacle in the plane: without repulsion the distance never falls below its start value (at most 1) minus 4k/l*1e-8 times the length of the path; with repulsion the agent never touches the safety region.",
  "all numbers of iterations, gains, targets, speed limits, obstacles, margins, initial positions", "unbounded executions; the small-angle cut-off in modulate_velocity makes every step slightly wrong", MO+": modulate_velocity", "tests/testMovingObstacle.cpp: control loop", "tests/testKIT.cpp: control loop")
p("The demonstration programs avoid the obstacles",
  "In the control loops of tests/testKIT.cpp, testMovingObstacle.cpp, testWall.cpp, testSingleConfiguration.cpp and test3D.cpp the agent stays outside the safety regions of the obstacles added to the environment.",
  "all iterations", "the programs only plot; nothing checks the positions", "tests/testKIT.cpp", "tests/testMovingObstacle.cpp", "tests/testWall.cpp", "tests/testSingleConfiguration.cpp", "tests/test3D.cpp", "src/Environment.cpp: add_obstacle, update")
PT="src/Utils/Plotting/PlottingTools.cpp"
p("The drawn outline is the boundary of the section",
  "The solid line that Ellipsoid::draw produces for the plane xy (xz) is a closed line through equidistant parameter values of the boundary of the section of the ellipsoid in that plane of its frame, followed by the marks at position and reference position.",
  "all ellipsoids, poses, colours", "plots are only looked at", EL+": draw")
p("The dashed line is the safety boundary",
  "The dashed line that Ellipsoid::draw produces runs along the boundary of the ellipsoid with safety margin.",
  "all ellipsoids, margins", "plots are only looked at", EL+": draw")
p("A plot shows the whole configuration",
  "The plotting functions draw every obstacle once, in list order and with cycling colours, aggregates with all their primitives and both hulls, and agent, goal and trajectory in the plane of the respective plot; they never fail on initialised obstacles; figure first, saved and shown exactly on request, closed last.",
  "all heaps, nestings, lists, options", "unbounded lists and nesting; plots are only looked at", PT, AGO+": draw", HU+": draw")
p("The control loop keeps the agent out of every obstacle of a scene",
  "The loop set_linear_velocity / modulate_velocity with repulsion / limit the speed / set_position among any number of static obstacles in the plane whose regions of distance below 1.1 are pairwise disjoint: started outside of all obstacles the agent never touches any of them, for small enough time steps (an explicit bound in terms of the time horizon, the speed limit, the gain and the number of obstacles).",
  "all numbers of obstacles and iterations, gains, targets, speed limits, powers at least 1, margins, initial positions", "unbounded executions and numbers of obstacles; the interpolation between obstacles is only exact at a surface", MO+": modulate_velocity, weight_obstacles", "tests/testKIT.cpp: control loop")
p("The modulation neither accelerates nor turns back without bound",
  "The modulated velocity is at most 2*kappa times as long as the desired one, and from distance d >= 1 its component along the desired one is at least 1 - kappa/d times its length, where kappa depends only on the ratio of the half lengths.",
  "all poses, agents outside or inside, velocities, half lengths, integer curvatures", "a continuum of inputs; the bound is needed for every statement about finite time steps", MO+": compute_modulation_matrix", EL)
p("The control loop keeps the agent out of a moving obstacle",
  "The loop of tests/testMovingObstacle.cpp (obstacle drawn towards a goal, agent drawn towards a target, modulation with repulsion, speed limit, Euler steps) with the obstacle in the list: started outside, the agent never touches the safety region of the moving obstacle, for every number of iterations.",
  "all iterations, obstacles, goals, targets, gains, time steps and speed limits meeting explicit bounds", "unbounded executions; the program only plots", "tests/testMovingObstacle.cpp: control loop", MO+": modulate_velocity")
p("Rounding errors do not change the modulated velocity",
  "modulate_velocity in floating-point arithmetic: the computed velocity is finite and tends to the exact one as the precision grows, whatever the rounding mode, the order of magnitude of the libm errors, and the number of obstacles.",
  "all arithmetics of a precision, obstacles, poses, agents, velocities", "tests run one arithmetic (the hardware) and have no exact result to compare with", MO+": modulate_velocity", EL)
p("An aggregate keeps the agent on its side of the wall",
  "Seen from outside, the distance of an aggregate is that of its outside hull and at least 1; seen from inside it is that of the inside hull and exceeds 1 exactly within the inside hull. The normal is perpendicular to the chord between neighbouring surface points of the hull in question and points to the agent's side of the wall; the repulsion points away from the wall: outwards outside, towards the reference point inside. update_hull keeps the kinds of both hulls.",
  "all aggregates, hull surfaces, points, heaps", "all surfaces and points", AGO, "src/Obstacle/StarShapeHull.cpp: compute_normal_to_agent, compute_distance_to_point")
p("Rounding errors never push the agent into the obstacle",
  "The control loop set_linear_velocity / modulate_velocity with repulsion / limit the speed / set_position around one static obstacle in the plane, in floating-point arithmetic: from some precision on, depending only on the initial data, the loop never fails, never produces an infinity or NaN, keeps a fixed gap from the safety region and stays within a fixed distance of the target, for every number of iterations.",
  "all iterations, all arithmetics above the precision (any rounding mode, any libm with bounded errors), obstacles, poses, targets, gains, time steps, speed limits meeting explicit bounds", "unbounded executions; errors could accumulate; tests run one arithmetic", "tests/testKIT.cpp: control loop", "tests/testMovingObstacle.cpp: control loop", MO+": modulate_velocity")
p("The guard and the platform avoid their obstacles together",
  "tests/testGuardAvoidance.cpp: the guard stays above its place on the platform, the platform does not turn, and neither of them enters its obstacle, whatever the guard sees and wants, for every number of iterations.",
  "all environments, options, random numbers, targets, iterations", "random numbers; unbounded executions; two agents that share a heap; the program only plots", "tests/testGuardAvoidance.cpp: control loop", MO+": modulate_velocity")
p("The text output shows every value",
  "operator<< of obstacles and agents: each line carries its label and exactly the stored numbers; aggregates list the texts of their primitives in order at every nesting level; two obstacles have the same text exactly if they hold the same values; the printed angle and axis describe the rotation of the quaternion; printing never fails on initialised obstacles.",
  "all heaps, nestings, obstacles, agents, names without line break", "unbounded nesting; two different configurations with the same text cannot be found by comparing expected output", OBH+": print, operator<<", AGH+": print", "include/DynamicObstacleAvoidance/Obstacle/Ellipsoid.hpp: print", PH+": operator<<", "include/DynamicObstacleAvoidance/State/State.hpp: operator<<", AH+": operator<<")
p("The surface of a hull is impenetrable",
  "Hulls and aggregates as obstacles, without repulsion: on their surface the modulated velocity has no part through the surface, so that a short enough step from the surface does not lead to the other side.",
  "all hulls of either kind, aggregates, points of the surface, velocities", "a continuum of points and velocities; a plot does not show a part through the surface of one percent", HU+": compute_normal_to_agent, compute_distance_to_point", MO+": modulate_velocity", MT+": find_closest_points")
p("The control loop never crosses the wall of an aggregate",
  "The control loop set_linear_velocity / modulate_velocity with repulsion / limit the speed / set_position near an aggregate: an agent that starts outside the outside hull and its primitives stays outside; an agent that starts within the inside hull stays there, even if the target is on the other side of the wall; for every number of iterations, and no call fails.",
  "all iterations, aggregates, initial positions, targets, gains, time steps and speed limits meeting explicit bounds", "unbounded executions; without repulsion the agent does cross the wall, slowly, so that the margin left by the repulsion has to be quantified", "tests/testConfiguration.cpp: control loop", "tests/testKIT.cpp: control loop", MO+": modulate_velocity", AGO, HU+": compute_normal_to_agent, compute_distance_to_point")
p("The control loop brings the agent to its target",
  "The control loop set_linear_velocity / modulate_velocity with or without repulsion / limit the speed / set_position around an obstacle: the agent converges to the target from every starting point outside, no call fails, and the agent never enters the safety region.",
  "all iterations, starting points, poses, targets, gains, time steps and speed limits meeting explicit bounds", "a limit of unbounded executions; the set of starting points from which it fails has measure zero, so that random tests never meet it", "tests/testKIT.cpp: control loop", "tests/testConfiguration.cpp: control loop", MO+": modulate_velocity")
p("Aggregation and drawing never fail and show each group once",
  "tests/testOptimization.cpp, for any scene: aggregate_obstacles followed by plot_configuration returns normally whatever the arithmetic; the obstacles are partitioned into groups, two obstacles being in the same group exactly if a chain of intersecting obstacles links them; each group is drawn once, in the next colour, with a border and a safety curve for each member and, for groups of several, the hull and one cross at the mean of the positions. For the scene of the program itself the groups are e1 e2, e3 e4 e8, e5 e6, e7.",
  "all scenes of initialised obstacles (nested aggregates included), agents, goals, arithmetics", "the program shows a figure and checks nothing; unbounded number of obstacles", "tests/testOptimization.cpp: main", AGG, PT)
p("The hull of an aggregate contains its members",
  "After an aggregation the hulls of every new aggregate are those of its present members around its present reference position, although they are computed again and again while members are added; the outside hull contains all members, so that an agent outside of the hull and of the members is not led into a member.",
  "all scenes, groups, poses, agents in front of the hull", "the hull is sampled at 500 angles and smoothed; a plot does not show a missing tip", AGO+": add_primitive, update_hull", HU+": compute_hulls", AGG, MO+": modulate_velocity")
p("modulate_velocity returns normally in an environment with aggregates",
  "After update() with aggregation in an environment of ellipsoids, modulate_velocity returns normally for every agent and all options: no access out of range, no uninitialised read, no exception.",
  "all environments of initialised ellipsoids, groups, agents, velocities, options", "undefined behaviour on a set of positions of measure zero (or a wedge of 1e-4), which random tests do not hit; the read past the end goes unnoticed", AGO+": compute_normal_to_agent, compute_distance_to_point, point_is_inside", MT+": find_closest_points", MO+": modulate_velocity")
p("Obstacles live exactly as long as somebody can reach them",
  "Obstacles are shared through std::shared_ptr between the client, the map and the list of the environment and the primitives of aggregates. No obstacle is destroyed while the client can reach it, even after remove_obstacle or a new update(); when nobody can reach an obstacle it is destroyed (no cycle of pointers can be built with add_primitive); repeated calls of update() leave a bounded number of obstacles, although each makes new aggregates.",
  "all executions of all client programs, orders of destruction, nestings, numbers of updates", "leaks and dangling pointers do not change the results of a test; unbounded executions", ENV+": add_obstacle, remove_obstacle, update, operator[]", AGO+": add_primitive", AGH+": set_reference_position, primitives", AGG, "include/DynamicObstacleAvoidance/Environment.hpp: obstacle_map, obstacle_list")
p("Printed numbers are correct to six digits",
  "Numbers written by operator<< and print: the text is a decimal numeral with at most six significant digits, no such numeral is nearer to the number and of two equally near ones the one with even sixth digit is written, order and sign are preserved, numbers that stand for a decimal of at most six digits (0.1) are printed as that decimal, infinite values and NaN cannot be taken for numbers; the characters written for a state, an agent or an ellipsoid determine all its numbers to six digits.",
  "all numbers, states, agents, ellipsoids, names without line break", "a continuum of numbers; rounding at powers of ten and ties; texts that run into each other", PH+": operator<<", "include/DynamicObstacleAvoidance/State/State.hpp: operator<<", OBH+": print, operator<<", "include/DynamicObstacleAvoidance/Obstacle/Ellipsoid.hpp: print", AH+": operator<<")
p("Results do not depend on where obstacles are stored",
  "Two memories that contain obstacles made of the same things (same kind, same data, same primitives in the same order) at possibly different addresses, next to possibly different other objects and with possibly different sharing: all queries, modulate_velocity with all options, exist_path and in_obstacle give the same results or fail in the same way; update() lists obstacles made of the same things; the control loops of the demonstration programs move the agent in the same way.",
  "all pairs of memories, nestings, agents, options, numbers of iterations, arithmetics", "addresses cannot be controlled by a test; a comparison of pointers or a stale alias shows up only for particular layouts", ENV+": update", AGG, MO+": modulate_velocity", AC+": exist_path, in_obstacle", "tests/testKIT.cpp: control loop", "tests/testWall.cpp: control loop")
p("Calling update() in every iteration does not change the motion",
  "With obstacles at rest that share no primitives, a control loop that calls update() in every iteration, each time building new aggregates, moves the agent exactly as the loop that calls update() once before it, and fails exactly when and how that one fails.",
  "all environments, nestings, modes, options, numbers of iterations, arithmetics", "equality of unbounded executions that use different objects; planar modulation changes reference positions in between", ENV+": update", AGG, AGO+": add_primitive", MO+": modulate_velocity, shift_reference_point")
p("Obstacles remember what was set",
  "After any sequence of calls of the setters (name, pose, position, orientation, velocities, reference position, axis lengths, curvature factors, resolution) on any obstacles, every member of every obstacle has the value written to it last: the reference position also by a call on an aggregate that contains it, position and orientation also by set_pose, orientations scaled to unit norm; everything else is as before. Calls on unrelated obstacles commute. Constructors store their arguments.",
  "all memories, nestings, sequences of calls on any number of obstacles", "unbounded sequences; a setter that writes one member too many or to the wrong obstacle shows up only in sequences that read that member later", OBH+": set_name, set_pose, set_position, set_orientation, set_linear_velocity, set_angular_velocity, set_reference_position", AGH+": set_reference_position", "include/DynamicObstacleAvoidance/Obstacle/Ellipsoid.hpp: set_axis_lengths, set_curvature_factor", HUH+": set_resolution", OB+": constructors", EL+": constructors", "src/State/State.cpp")
p("A hull built from a list of obstacles is centred, independent of order, and moves with them",
  "StarShapeHull(primitives, ...) returns normally exactly if all pointers are valid and the resolution is at least 2; its position and reference position are the point with the least sum of squared distances to the positions of the obstacles; the radii do not depend on the order of the list; moving all obstacles moves the hull and changes nothing else.",
  "all lists of obstacles, resolutions, kinds of hull, translations", "a continuum of configurations; sorting hides order dependence in most of them", HU+": StarShapeHull, compute_baricenter, compute_from_primitives")
p("Assignment through operator[] stores the obstacle under the name",
  "environment[name] = obstacle: if the name is known the assignment returns, from then on environment[name] is the assigned obstacle, every other name means what it meant before, and the following update() uses the assigned obstacle; if the name is unknown it throws and changes nothing. The environment never lists an obstacle twice.",
  "all histories of calls, names, obstacles, modes", "the reference may point into the map or into the list, depending on the mode and on what update() aggregated before; the difference shows up only in later calls", ENV+": operator[], update", "include/DynamicObstacleAvoidance/Environment.hpp: operator[]")
p("The assertions of the unit tests hold",
  "Every test of testState.cpp, testEllipsoidObstacle.cpp, testModulation.cpp and testEnvironment.cpp ends without an exception or undefined behaviour, and all its assertions hold in exact arithmetic, with the tolerances written in the tests and for all values of rand().",
  "all values of the random numbers; all tests", "a test that passes on one machine says nothing about other values of rand() and about how near the result is to the tolerance; a test that is not run can be wrong", "tests/testState.cpp", "tests/testEllipsoidObstacle.cpp", "tests/testModulation.cpp", "tests/testEnvironment.cpp")
p("Exceptions are rare, can be caught, and say what went wrong",
  "The only exceptions are: add_obstacle with a name that is taken, remove_obstacle and operator[] with a name that is not in the environment. All other calls (update, modulate_velocity with all options, exist_path, in_obstacle, the queries and the construction of obstacles, the loops of the programs) throw nothing. Every exception can be caught as const std::exception& and the text of what() determines which of the two errors it was and the name.",
  "all environments, memories, agents, options, names, arithmetics, numbers of iterations", "unbounded inputs; an exception of the wrong type is seen only when it is thrown", ENV+": add_obstacle, remove_obstacle, operator[], update", "include/DynamicObstacleAvoidance/Exceptions/ObstacleAlreadyExistsException.hpp", "include/DynamicObstacleAvoidance/Exceptions/ObstacleNotInEnvironmentException.hpp", MT+": linspace", MO+": modulate_velocity")
p("Results do not depend on the choice of the coordinates",
  "Describe the same scene (ellipsoids, agent, velocities, target) in other Cartesian coordinates: shifted, rotated or reflected. Then distances, tests for inside and normals are the same, modulate_velocity gives the same velocity for all options, and the control loop moves the agent along the same path.",
  "all coordinates, numbers, poses, shapes and motions of ellipsoids, agents, options, numbers of iterations", "a continuum of coordinates for each scene; a distinguished axis in a cross product, a wrong handedness or a vector left in the wrong frame shows up only in particular positions", MO+": modulate_velocity, compute_basis_matrices, compute_dynamical_system_frame, compute_relative_velocities, shift_reference_point", EL+": compute_distance_to_point, compute_normal_to_agent, compute_repulsion_vector", "tests/testKIT.cpp: control loop")
p("Results do not depend on the units",
  "Describe the same scene in other units of length and time: all lengths (positions, axes, margins, target) multiplied by k, all speeds by m, the gain and the time step of the loop converted. Then distances and normals are the same numbers, modulate_velocity gives the same velocity (multiplied by m) for all options, and the control loop moves the agent along the same path.",
  "all units, numbers, poses, shapes and motions of ellipsoids, agents, options, numbers of iterations", "a continuum of units for each scene; constants in the code that are lengths (1e-4, half a metre of sight) or lengths added to velocities are right in one unit only, the one used by the tests", MO+": modulate_velocity, compute_relative_velocities, shift_reference_point", EL+": compute_distance_to_point, compute_normal_to_agent, compute_repulsion_vector", AC+": update_envelope", "tests/testKIT.cpp: control loop")
p("Results do not depend on the origin of the coordinates",
  "Seen from another origin (every point x becomes x + t, directions kept), for obstacles of all kinds, hulls, aggregates and nestings of them: all queries give the same results, update() aggregates the same obstacles and builds the same aggregates and hulls seen from the other origin, modulate_velocity gives the same velocity with all options, the control loops move the agent along the same path; what fails from one origin fails in the same way from the other.",
  "all displacements, memories, nestings, agents, options, numbers of iterations", "a continuum of displacements; a point treated as a direction (a sample, a centre, a reference point) is right near the origin, where the tests are", EL+": sample_from_parameterization, is_intersecting_ellipsoid", AGO, HU, AGG, ENV+": update", MO+": modulate_velocity", AC+": exist_path, in_obstacle", "tests/testKIT.cpp: control loop", "tests/testWall.cpp: control loop")
p("The standard algorithms are called within their contracts",
  "Wherever the code calls std::sort, the comparison it passes is a strict weak ordering on the elements of the range (no NaN among different keys); wherever it calls std::lower_bound, the range is partitioned with respect to the value searched for. Otherwise the call has undefined behaviour.",
  "all obstacles with finite data, reference points, numbers of rays, query points, names", "a violation shows as a wrong column, a crash or nothing at all, depending on the library and on the number of elements; the tests never look at the order of the columns", HU+":74,79 std::sort", AGO+":17,53 std::sort", MT+":77 std::sort, :89 std::lower_bound")
p("No exceptional values in hulls and aggregates",
  "On ideal doubles (exact arithmetic with infinite values and NaN) update() with aggregation, that is tests of overlap, grouping, names, reference points and hulls, ends as in real arithmetic: the same list, the same finite obstacles in memory, or the same failure. The queries of hulls give the same finite values, and modulate_velocity among ellipsoids, hulls and aggregates gives the same finite velocity or fails in the same way.",
  "all memories of ellipsoids with nonzero half lengths in the plane, no ray parallel to the y axis of an ellipsoid (true for all rotations about z by rational multiples of pi but the quarter turns), hulls, nested aggregates; for the velocity all options, agents not in the centre of a hull and with a regular reference basis", "the divisions by zero are on a set of measure zero, except for the quarter turns, which clients do use; an infinite slope silently drops a point of the hull", HU+": compute_from_primitives", EL+": compute_intersection_points", AGO+": update_hull", AGG, ENV+": update", MO+": modulate_velocity")
p("Results do not depend on how std::sort orders equal elements",
  "std::sort leaves the order of equal elements unspecified (primitives of the same name, intersection points at the same distance). Whatever order it produces: the name and the centre of an aggregate are the same, and so are its hulls, hence all distances, tests for inside, normals and velocities.",
  "all permitted orders on every call of std::sort, all primitives, names, reference points, numbers of rays", "each library produces one order; another compiler or another number of elements (std::sort switches algorithm at 16) gives another", AGO+":17,53 std::sort", HU+":74,79 std::sort")
p("Looking only at obstacles in sight is as safe as looking at all",
  "With is_local, modulate_velocity ignores obstacles that the envelope of the agent does not meet. Around obstacles at rest the control loop with repulsion nevertheless keeps the agent outside of all obstacles for ever, whenever it does so without is_local.",
  "all elliptic obstacles in the plane, agents, margins, targets, gains, time steps, numbers of iterations", "the envelope is compared with 100 sampled points of an obstacle; whether an approach slips between two of them depends on the size of the obstacle and on the place and direction of the approach, a continuum", MO+": modulate_velocity (is_local)", AC+": update_envelope", EL+": is_intersecting_ellipsoid", "tests/testKIT.cpp: control loop")
p("A small change of the situation changes the commanded velocity little",
  "modulate_velocity is continuous: if position, velocity and margin of the agent and poses, velocities, sizes and reference points of the obstacles change little, so does the velocity it returns. The position of the agent after any number of iterations of the control loop depends continuously on its start.",
  "all numbers, shapes, poses and motions of ellipsoids, agents, margins, critical distances and powers, options for repulsion, numbers of iterations", "a continuum of situations and of neighbours of each; a jump is on a set of measure zero that samples miss", MO+": modulate_velocity, weight_obstacles, compute_relative_velocities, compute_dynamical_system_frame", EL+": compute_distance_to_point, compute_normal_to_agent, compute_repulsion_vector", OB+": generate_repulsion_vector", "tests/testKIT.cpp: control loop")
p("An obstacle far away does not matter",
  "Carry one of the obstacles of an environment (at rest, moving or turning) farther and farther away, in any direction: the velocity returned by modulate_velocity tends to the one it returns in the environment without this obstacle, whatever the other obstacles do; if it is the only obstacle, to the desired velocity.",
  "all numbers, shapes, poses and motions of ellipsoids, places in the list, directions, agents, margins, critical distances, positive powers, options for repulsion", "a limit: each test has one distance; a weight that does not decay, a matrix that does not tend to the identity or an angular velocity that grows with the distance shows up only in the limit", MO+": weight_obstacles, compute_diagonal_eigenvalues, compute_obstacle_velocity, modulate_velocity", EL+": compute_distance_to_point, compute_normal_to_agent", OB+": generate_repulsion_vector")
p("An agent inside an obstacle gets out again",
  "If the agent is inside an obstacle (the obstacle appeared or grew at its place, or the first position is there), the control loop brings it out after a bounded number of iterations, and from then on the agent stays outside.",
  "all sizes, poses and exponents of ellipsoids, positions inside, targets, gains, time steps, options, numbers of iterations", "unbounded number of iterations from a continuum of positions; all tests start outside", MO+": modulate_velocity, compute_diagonal_eigenvalues", OB+": generate_repulsion_vector", EL+": compute_repulsion_vector", "tests/testKIT.cpp: control loop")
p("An obstacle that is listed several times counts once",
  "If an environment contains the same obstacle (same shape, pose, velocities, reference point, margin) several times under different names, modulate_velocity returns the same velocity as if it contained it once.",
  "all numbers of copies, kinds, shapes, poses and motions of obstacles, other obstacles, agents, critical distances and powers, options", "a continuum of scenes; weights that do not add up to one or a sum in place of a mean show up only with several obstacles at the same distance", MO+": weight_obstacles, compute_relative_velocities, modulate_velocity", OB+": generate_repulsion_vector")
p("It does not matter how the agent is turned",
  "The avoidance treats the agent as a disc: orientation and angular velocity of the agent have no influence on the velocity returned by modulate_velocity (all options), on in_obstacle and exist_path, on what the calls do to obstacles and envelope, and on the path of the agent in the control loops, also if the orientation is set anew in every iteration; the loops do not turn the agent. In the guard program only the orientation of the platform matters, since the guard is carried by it.",
  "all obstacles of all kinds, agents, orientations, angular velocities, options, numbers of iterations, number types", "noninterference: a statement about all pairs of runs; the agents of the tests are never turned, and an envelope or a frame that uses the orientation is right for the identity", MO+": modulate_velocity", AC+": update_envelope, in_obstacle, exist_path", AH+": set_orientation, set_angular_velocity", "tests/testKIT.cpp: control loop", "tests/testMovingObstacle.cpp: control loop", "tests/testGuardAvoidance.cpp: control loop")
p("The name of an aggregate identifies it",
  "After update, different entries of the obstacle list have different names, the name of an aggregate tells which obstacles it consists of, and operator[] returns every entry of the list for its name, whatever calls were made before.",
  "all environments, names of obstacles, overlaps, histories of calls, both modes", "the names are glued together with a separator that may itself occur in a name; whether two groups get the same string depends on the names and on which obstacles happen to overlap", AGO+":11-30,50-66 Aggregate, add_primitive (name)", ENV+":53-69 operator[]")
p("A removed obstacle leaves no trace",
  "Obstacles are added to an environment and removed again, with any number of updates and lookups in between, also calls that throw. If after the next update every name stands for the same obstacle as it did after an earlier update, then obstacles, map and list are what they were then, and so every agent gets the same velocity.",
  "all environments, obstacles, histories of calls before and in between, both modes", "all sequences of calls, of any length; what remains of the removed obstacle can sit in the others (reference positions), in the map or in the list", ENV+": add_obstacle, remove_obstacle, update, operator[]", AGO+": Aggregate, add_primitive", AGH+":119-126 set_reference_position")
p("What the obstacles are called does not matter",
  "Two clients build the same obstacles (same kinds, shapes, poses, velocities, reference points) but give them different names, and register them in any order. Every query of an obstacle has the same answer, after update every agent gets the same velocity from modulate_velocity, and the control loops take it along the same path; if a call fails, it fails for both.",
  "all obstacles of all kinds, names, orders of registration, agents, options, numbers of iterations, both modes", "a statement about all pairs of runs and all renamings; the names decide the order of the map, hence the order of the list and the order in which aggregation compares obstacles, and a comparison that is not symmetric shows only for some pairs in one of the two orders", ENV+":11-19,46-51 add_obstacle, update", AGG+": aggregate_obstacles", EL+": is_intersecting_ellipsoid", MO+": modulate_velocity", AC+": in_obstacle, exist_path", "tests/testKIT.cpp: control loop", "tests/testWall.cpp: control loop")
p("Agents that share an environment do not get in each other's way",
  "Several agents steer by the same environment, each with its own control loop; they take turns in any order, and obstacles may be moved between the turns. Every agent ends in the state it would have reached alone with as many iterations, whatever the others do; all of them get through if each one does alone; the order of the turns does not matter; and nothing but the envelopes of the agents is changed.",
  "all numbers of agents, schedules, control loops, environments, obstacles, options", "a statement about all interleavings of all runs; the agents share the obstacles through pointers, and modulate_velocity takes the environment by const reference but writes to the obstacles behind it with one of its options", MO+":130-151 modulate_velocity", OB+":141-155 shift_reference_point", AC+":21-35 update_envelope", "tests/testGuardAvoidance.cpp: control loop", "tests/testKIT.cpp: control loop")
p("An agent in a hurry takes the same path",
  "Among obstacles at rest modulate_velocity is positively homogeneous for all options: an agent that wants to go mu times as fast in the same direction is commanded mu times the velocity. Hence the path of the control loop depends on gain and time step only through their product: with mu times the gain and the time step divided by mu (and mu times the largest speed, if there is one) the agent passes through the same points.",
  "all agents, obstacles at rest of all kinds, environments, options, speed factors, gains, time steps, numbers of iterations",
  "a continuum of speeds and gains; constants in the code that compare speeds with fixed numbers, or terms that are added to a velocity without being one, show only away from the speeds used in the tests",
  MO + ": modulate_velocity, compute_relative_velocities", AC + ": update_envelope", OB + ": shift_reference_point", "tests/testKIT.cpp: control loop")

p("The control loop remembers nothing but the place of the agent",
  "Two agents with equal parameters start among the same obstacles and live different lives: any iterations of the control loops of the tests with other targets, gains, time steps, environments and options, but without planar modulation. If they end at the same place, then every further iteration of a control loop (testKIT.cpp, test3D.cpp, and testWall.cpp if the envelope is not itself an obstacle; with any options) has the same outcome for both, down to the last bit: neither the velocity of the past nor the past envelope has an influence.",
  "all lives, obstacles of all kinds, constants of the loops, numbers of iterations; every scalar type, rounding included",
  "tests run each program once from its start; a memory would show only in a comparison of two histories that end at the same place",
  AC + ": update_envelope, set_linear_velocity, set_position", MO + ": modulate_velocity", "tests/testKIT.cpp: control loop", "tests/test3D.cpp: control loop", "tests/testWall.cpp: control loop")

with open("/verif/properties.jsonl","w") as f:
    for q in P: f.write(json.dumps(q)+"\n")
print(len(P))
