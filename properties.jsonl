{"id": "C01", "title": "Environment is a map from names to obstacles", "statement": "Starting from an empty Environment, after any sequence of add_obstacle / remove_obstacle / update / set_aggregated / operator[] calls, env[k] returns the obstacle most recently added under name k and not removed since; add_obstacle throws ObstacleAlreadyExistsException exactly when a live obstacle was added under that name, remove_obstacle throws ObstacleNotInEnvironmentException exactly when none was; a throwing call changes nothing.", "quantifier": "every history of calls, every set of names and obstacles", "why_tests_cant": "the histories are unbounded; a test checks a few", "anchors": ["src/Environment.cpp: add_obstacle, remove_obstacle, operator[]"]}
{"id": "C02", "title": "Obstacle list is the snapshot taken by the last update, in name order", "statement": "get_obstacle_list() only changes when update() runs; with aggregation off, right after update() it holds every obstacle present in the environment exactly once, in strictly increasing order of the names they were added under, and nothing else. In particular, obstacles added without a following update() are invisible to modulate_velocity.", "quantifier": "every history of calls", "why_tests_cant": "depends on the whole history and on the order of arbitrary names", "anchors": ["src/Environment.cpp: update", "include/DynamicObstacleAvoidance/Environment.hpp: get_obstacle_list", "src/Modulation.cpp: modulate_velocity"]}
{"id": "C03", "title": "Name resolution of operator[] in aggregated mode", "statement": "env[k] resolves to the obstacle added under k if there is one; otherwise, only in aggregated mode, to the first element of the current obstacle list whose current name is k; otherwise it throws. A user expects that a removed obstacle is no longer reachable by name.", "quantifier": "every environment state and every name", "why_tests_cant": "all combinations of map, list, names and flags", "anchors": ["src/Environment.cpp: operator[]"]}
{"id": "C04", "title": "update() does not move or reshape obstacles", "statement": "update() leaves name, pose, velocities, safety margin, axis lengths and curvature of every obstacle unchanged; the only thing it may change in an existing obstacle is the reference position, and only for obstacles that end up inside an aggregate.", "quantifier": "every environment, every obstacle, with or without aggregation", "why_tests_cant": "a frame condition over all fields of all objects", "anchors": ["src/Environment.cpp: update", "src/Utils/ObstacleGeneration/Aggregation.cpp: aggregate_obstacles", "include/DynamicObstacleAvoidance/Obstacle/Aggregate.hpp: set_reference_position"]}
{"id": "C05", "title": "Aggregation partitions the obstacles", "statement": "aggregate_obstacles(list) returns a list in which every input obstacle occurs exactly once: either as itself or as one primitive of exactly one aggregate; no obstacle is lost, duplicated or invented; every aggregate has at least two primitives; un-aggregated obstacles come after the aggregates, in input order.", "quantifier": "every list of obstacles and every outcome of the pairwise intersection tests", "why_tests_cant": "the merge/renumber code has a case per history of merges", "anchors": ["src/Utils/ObstacleGeneration/Aggregation.cpp: aggregate_obstacles"]}
{"id": "C06", "title": "Aggregates are the connected components of the intersection relation", "statement": "Two input obstacles end up in the same aggregate if and only if they are linked by a chain of inputs in which each consecutive pair (earlier in the list tested against later) reports is_intersecting.", "quantifier": "every list of obstacles, every intersection relation, chains of any length", "why_tests_cant": "needs all graphs and all chain lengths", "anchors": ["src/Utils/ObstacleGeneration/Aggregation.cpp: aggregate_obstacles"]}
{"id": "C07", "title": "Aggregation never indexes out of bounds", "statement": "aggregate_obstacles performs no out-of-range access to its index vector, to the deque of aggregates or in its erase call, and it terminates, for every list of live obstacles.", "quantifier": "every list of obstacles and every outcome of intersection tests", "why_tests_cant": "out-of-range access is undefined behaviour, not a test failure", "anchors": ["src/Utils/ObstacleGeneration/Aggregation.cpp: aggregate_obstacles"]}
{"id": "C08", "title": "Aggregate names are canonical", "statement": "The name of an aggregate is \"aggregate\" followed by \"_name\" for each primitive in increasing name order; so the name and the primitive order depend only on the set of members, not on the order in which they were added.", "quantifier": "every collection of primitives, every insertion order", "why_tests_cant": "n! insertion orders", "anchors": ["src/Obstacle/Aggregate.cpp: add_primitive, Aggregate(list)"]}
{"id": "C09", "title": "Aggregate centre and shared reference point", "statement": "After primitives are added, the aggregate's position and reference position are the arithmetic mean of its primitives' positions, and every primitive (at every nesting level) has that same reference position. set_reference_position on an aggregate moves the reference of all its primitives.", "quantifier": "every non-empty collection of primitives, any sequence of add_primitive / set_reference_position", "why_tests_cant": "unbounded number of primitives and nesting", "anchors": ["src/Obstacle/Aggregate.cpp: add_primitive, update_center_position", "include/DynamicObstacleAvoidance/Obstacle/Aggregate.hpp: set_reference_position"]}
{"id": "C10", "title": "The reference point of an obstacle belongs to it after update", "statement": "After update(), an obstacle that is not part of an aggregate has a reference point that lies inside it (the algorithm needs this for the modulation to be well defined), whatever aggregates it belonged to before.", "quantifier": "every history of moves and updates", "why_tests_cant": "depends on past aggregation, i.e. on histories", "anchors": ["src/Utils/ObstacleGeneration/Aggregation.cpp", "include/DynamicObstacleAvoidance/Obstacle/Aggregate.hpp: set_reference_position", "src/Obstacle/Aggregate.cpp: add_primitive"]}
{"id": "C11", "title": "Aggregates keep the motion of their members", "statement": "If obstacles that move (non-zero linear or angular velocity) are aggregated, the modulation still accounts for their motion.", "quantifier": "every set of obstacles with every velocity", "why_tests_cant": "all velocities, all groupings", "anchors": ["src/Obstacle/Aggregate.cpp: add_primitive", "src/Modulation.cpp: compute_relative_velocities"]}
{"id": "C12", "title": "update() is idempotent", "statement": "Calling update() a second time without changes in between yields the same obstacle list: same order, same names, same membership, same centres and the same reference points.", "quantifier": "every environment", "why_tests_cant": "all environments", "anchors": ["src/Environment.cpp: update", "src/Utils/ObstacleGeneration/Aggregation.cpp"]}
{"id": "C13", "title": "linspace is an exact even partition", "statement": "linspace(start,end,num) with num >= 2 returns exactly num values, the first is start, the last is end, the i-th is start + i*(end-start)/(num-1); the values are increasing when start < end; with num < 2 it throws.", "quantifier": "all start, end, num", "why_tests_cant": "unbounded num and real endpoints", "anchors": ["src/Utils/MathTools.cpp: linspace"]}
{"id": "C14", "title": "gridspace enumerates the full grid row by row", "statement": "gridspace returns nx*ny points; the point at index i*ny+j is (x_i, y_j) with x and y the two linspaces; no cell is left default-initialised and no write is out of range.", "quantifier": "all corners and all grid sizes >= 2", "why_tests_cant": "unbounded sizes", "anchors": ["src/Utils/MathTools.cpp: gridspace"]}
{"id": "C15", "title": "Polar conversion round-trips", "statement": "polar_to_cartesian(cartesian_to_polar(p)) = p for every non-zero p, and cartesian_to_polar(polar_to_cartesian(r,theta,phi)) = (r,theta,phi) for r>0, 0<theta<pi, -pi<phi<=pi.", "quantifier": "all points / all polar coordinates", "why_tests_cant": "a continuum of inputs", "anchors": ["src/Utils/MathTools.cpp: cartesian_to_polar, polar_to_cartesian"]}
{"id": "C16", "title": "find_closest_points returns usable neighbouring indices", "statement": "For surface points sorted by angle, the first index returned is the smallest one whose angle is >= the query angle, the second is its cyclic successor, and both are valid column indices.", "quantifier": "all matrices with sorted row, all query points", "why_tests_cant": "all sorted lists and all real queries", "anchors": ["src/Utils/MathTools.cpp: find_closest_points"]}
{"id": "C17", "title": "sorted_cols_by_theta sorts without losing columns", "statement": "The result has exactly the same multiset of columns as the input and the second coordinate is non-decreasing from left to right.", "quantifier": "all matrices", "why_tests_cant": "all sizes", "anchors": ["src/Utils/MathTools.cpp: sorted_cols_by_theta, compare_theta"]}
{"id": "C18", "title": "rand_float stays in range; sign is the signum", "statement": "rand_float(a,b) lies between min(a,b) and max(a,b) and reaches both ends; sign(v) is -1, 0 or 1 according to the sign of v.", "quantifier": "all a, b, all values rand() may return, all v", "why_tests_cant": "rand() is random; range is a universal claim", "anchors": ["src/Utils/MathTools.cpp: rand_float", "include/DynamicObstacleAvoidance/Utils/MathTools.hpp: sign"]}
{"id": "C19", "title": "Pose composition is composition of the rigid motions", "statement": "For poses p, q and a vector v: (p*q)*v = p*(q*v), composition is associative, the default Pose is neutral, and p *= q agrees with p*q (also when q is p itself).", "quantifier": "all poses with unit orientation and all vectors", "why_tests_cant": "a continuum of inputs", "anchors": ["include/DynamicObstacleAvoidance/State/Pose.hpp: operator*, operator*="]}
{"id": "C20", "title": "Pose orientation is always a unit quaternion", "statement": "Whatever position and non-zero quaternion a Pose is built from, and after any sequence of set_orientation / operator*= / inverse, its orientation has norm 1 (so that it is a rotation), and a constructor yields w >= 0.", "quantifier": "all non-zero quaternions, all sequences of operations", "why_tests_cant": "all quaternions and all histories", "anchors": ["src/State/Pose.cpp: Pose(position, orientation), Pose(7 doubles)", "include/DynamicObstacleAvoidance/State/Pose.hpp: set_orientation"]}
{"id": "C21", "title": "Pose inverse undoes the pose and poses preserve distances", "statement": "p.inverse()*(p*v) = v = p*(p.inverse()*v), p.inverse().inverse() = p, (p*q).inverse() = q.inverse()*p.inverse(), and |p*v - p*w| = |v - w|.", "quantifier": "all poses with unit orientation, all vectors", "why_tests_cant": "a continuum of inputs", "anchors": ["include/DynamicObstacleAvoidance/State/Pose.hpp: inverse, operator*"]}
{"id": "C22", "title": "Ellipsoid distance is the (super)ellipsoid level function", "statement": "For lengths (axis + obstacle margin + extra margin) above 1e-4 the distance is sum over axes of (coordinate/length)^(2*curvature) in the obstacle frame: it is 0 exactly at the centre, < 1 exactly in the interior of the inflated (super)ellipsoid, 1 exactly on its surface, > 1 outside, and is never negative.", "quantifier": "all obstacles with positive integer curvature, all points, all margins", "why_tests_cant": "a continuum of inputs", "anchors": ["src/Obstacle/Ellipsoid.cpp: compute_distance_to_point", "src/Obstacle/Obstacle.cpp: compute_distance_to_agent"]}
{"id": "C23", "title": "Distance, normal and inside tests do not depend on the world frame", "statement": "Moving an ellipsoid and the query point (or agent) by the same rigid motion leaves compute_distance_to_point, compute_normal_to_agent (expressed in the obstacle frame) and point_is_inside unchanged.", "quantifier": "all rigid motions, obstacles, points", "why_tests_cant": "a continuum of inputs", "anchors": ["src/Obstacle/Ellipsoid.cpp", "include/DynamicObstacleAvoidance/State/Pose.hpp"]}
{"id": "C24", "title": "Safety margins only make obstacles larger", "statement": "Increasing the obstacle's axis lengths or safety margin or the agent's margin never increases the reported distance, and never turns an inside point into an outside one.", "quantifier": "all margins, points, ellipsoids", "why_tests_cant": "monotonicity over a continuum", "anchors": ["src/Obstacle/Ellipsoid.cpp: compute_distance_to_point, point_is_inside"]}
{"id": "C25", "title": "Ellipsoid normal is the outward unit surface normal", "statement": "compute_normal_to_agent returns a unit vector in the obstacle frame, parallel to the gradient of the distance function at the agent and pointing away from the centre, at every agent position other than the centre.", "quantifier": "all ellipsoids, curvatures, agent positions", "why_tests_cant": "a continuum of inputs, a statement about derivatives", "anchors": ["src/Obstacle/Ellipsoid.cpp: compute_normal_to_agent"]}
{"id": "C26", "title": "point_is_inside agrees with the distance", "statement": "point_is_inside(p) is true if and only if compute_distance_to_point(p, 0) <= 1.", "quantifier": "all ellipsoids, curvatures and points", "why_tests_cant": "a continuum of inputs", "anchors": ["src/Obstacle/Ellipsoid.cpp: point_is_inside, compute_distance_to_point"]}
{"id": "C27", "title": "Line intersection returns exactly the two surface points of the line", "statement": "compute_interesection_points(x1,x2) reports an intersection exactly when the line through x1 and x2, projected to the obstacle's x-y plane, meets the inflated ellipse; the two returned points then lie on that line and on the ellipse boundary, and are all the points with this property.", "quantifier": "all ellipsoids with positive lengths, all pairs of points", "why_tests_cant": "a continuum including vertical lines", "anchors": ["src/Obstacle/Ellipsoid.cpp: compute_interesection_points"]}
{"id": "C28", "title": "Sampled points lie on the obstacle boundary", "statement": "sample_from_parameterization(n, margin) returns n points which all lie on the boundary of the ellipse (with or without margin) in the x-y plane, starting and ending at the same point.", "quantifier": "all n >= 2, all ellipsoids rotated about z", "why_tests_cant": "all n and a continuum of poses", "anchors": ["src/Obstacle/Ellipsoid.cpp: sample_from_parameterization"]}
{"id": "C29", "title": "Intersection test is exact for ellipsoids", "statement": "e1.is_intersecting(e2) is true exactly when the two inflated ellipses have a point in common; in particular it is symmetric.", "quantifier": "all pairs of ellipsoids", "why_tests_cant": "a continuum of pairs; sampling misses are measure-small", "anchors": ["src/Obstacle/Ellipsoid.cpp: is_intersecting_ellipsoid", "src/Obstacle/Obstacle.cpp: is_intersecting"]}
{"id": "C30", "title": "Intersection test between obstacle kinds is symmetric", "statement": "a.is_intersecting(b) = b.is_intersecting(a) whatever the kinds of a and b (ellipsoid, aggregate).", "quantifier": "all pairs of obstacles of all kinds", "why_tests_cant": "all pairs", "anchors": ["src/Obstacle/Obstacle.cpp: is_intersecting, is_intersecting_aggregate, is_intersecting_ellipsoid"]}
{"id": "C31", "title": "Ellipsoid area is the surface area of spheres", "statement": "area() of a sphere of radius r is 4*pi*r^2; area is positive and increases when an axis grows.", "quantifier": "all radii and axis lengths", "why_tests_cant": "a continuum", "anchors": ["src/Obstacle/Ellipsoid.cpp: area"]}
{"id": "C32", "title": "Distance grows along rays from the centre", "statement": "Scaling the offset from the obstacle centre by s >= 0 multiplies the distance by s^(2*curvature) (uniform curvature); so the distance is strictly increasing along rays and unbounded.", "quantifier": "all rays, scales, ellipsoids", "why_tests_cant": "a continuum", "anchors": ["src/Obstacle/Ellipsoid.cpp: compute_distance_to_point"]}
{"id": "C33", "title": "Obstacle weights form a convex combination focused on critical obstacles", "statement": "weight_obstacles returns one weight per obstacle, all >= 0, summing to 1. If some distance is <= critical_distance, exactly those obstacles share the weight equally and all others get 0; otherwise all weights are positive, equal distances get equal weights and a strictly nearer obstacle gets a strictly larger weight (weight_power > 0).", "quantifier": "all non-empty distance arrays, critical distances, weight powers", "why_tests_cant": "unbounded arrays of reals", "anchors": ["src/Modulation.cpp: weight_obstacles"]}
{"id": "C34", "title": "Eigenvalues slow down towards and speed up around the obstacle", "statement": "compute_diagonal_eigenvalues(d): for d <= 1 it is (0,2,2); for d > 1 the reference eigenvalue lies in (0,1) and increases with d, the two tangent eigenvalues are equal, lie in (1,2) and decrease; reference + tangent = 2; as d grows they tend to 1.", "quantifier": "all distances and positive reactivity factors", "why_tests_cant": "a continuum and a limit", "anchors": ["src/Modulation.cpp: compute_diagonal_eigenvalues"]}
{"id": "C35", "title": "Orthogonal basis is orthonormal", "statement": "The second matrix returned by compute_basis_matrices is an orthonormal basis whose first column is the normal vector.", "quantifier": "all unit normals", "why_tests_cant": "a continuum", "anchors": ["src/Modulation.cpp: compute_basis_matrices"]}
{"id": "C36", "title": "Modulation matrix acts as designed on reference and tangent directions", "statement": "compute_modulation_matrix returns a matrix that scales the world-frame reference direction (from reference point to agent) by 1-1/d, and the tangent directions by 1+1/d (by 0 and 2 for d<=1); it is invertible for d > 1 and tends to the identity far away.", "quantifier": "all ellipsoids, orientations, reference points and agents in regular position", "why_tests_cant": "a continuum", "anchors": ["src/Modulation.cpp: compute_modulation_matrix, compute_basis_matrices"]}
{"id": "C37", "title": "Impenetrability: no velocity into the obstacle at its surface", "statement": "When the agent is on (or inside) the surface of an obstacle, the modulated velocity M*v has zero component along the surface normal, and outside the component is the original one scaled by 1-1/d >= 0; for every input velocity and every reference point.", "quantifier": "all ellipsoids, reference points, agents, velocities", "why_tests_cant": "a continuum; safety claim over all states", "anchors": ["src/Modulation.cpp: compute_modulation_matrix", "src/Obstacle/Ellipsoid.cpp: compute_normal_to_agent"]}
{"id": "C38", "title": "An agent that starts outside never enters (continuous time)", "statement": "If the agent's position follows x'(t) = modulated velocity of an arbitrary continuous desired velocity around a single static planar obstacle, and it starts with distance > 1, then the distance stays > 1 for all time.", "quantifier": "all trajectories, all desired velocities, all time", "why_tests_cant": "infinite time horizon and all trajectories", "anchors": ["src/Modulation.cpp: modulate_velocity", "src/Obstacle/Ellipsoid.cpp"]}
{"id": "C39", "title": "A single static obstacle gives exactly M*v", "statement": "With exactly one, static, obstacle and no repulsion, modulate_velocity returns the modulation matrix applied to the agent velocity (the angle-space interpolation is the identity for one obstacle), up to the documented small-angle cut-off.", "quantifier": "all ellipsoids, agents and planar velocities", "why_tests_cant": "a continuum through acos/sin/cos round trips", "anchors": ["src/Modulation.cpp: modulate_velocity"]}
{"id": "C40", "title": "No obstacles in sight means no modulation", "statement": "modulate_velocity returns the agent's velocity unchanged when the obstacle list is empty, and, with is_local, when the envelope of the agent intersects none of the listed obstacles.", "quantifier": "all agents, environments and flags", "why_tests_cant": "all environments", "anchors": ["src/Modulation.cpp: modulate_velocity", "src/Obstacle/Obstacle.cpp: is_intersecting(list)"]}
{"id": "C41", "title": "modulate_velocity never returns NaN", "statement": "Whatever the obstacles, distances and numerical degeneracies, the returned velocity contains no NaN (unless the agent's own velocity, returned unmodulated, does).", "quantifier": "all inputs including infinities, NaN and singular matrices", "why_tests_cant": "singular configurations have measure zero", "anchors": ["src/Modulation.cpp: modulate_velocity"]}
{"id": "C42", "title": "Repulsion acts only near the obstacle and pushes outward", "statement": "generate_repulsion is the zero vector when the distance is >= the threshold; below it, for an ellipsoid, it equals (2/distance) times the vector from the reference point to the agent: it points away from the reference point and gets stronger as the distance decreases.", "quantifier": "all obstacles, agents, thresholds", "why_tests_cant": "a continuum", "anchors": ["src/Obstacle/Obstacle.cpp: generate_repulsion, get_repulsion_factor", "src/Obstacle/Ellipsoid.cpp: compute_repulsion_vector", "src/Obstacle/Aggregate.cpp: compute_repulsion_vector"]}
{"id": "C43", "title": "Speed of the modulated velocity is the weighted mean of the individual speeds", "statement": "For static obstacles and a planar velocity the norm of the returned velocity is the weighted mean of |M_i*v| (up to the small-angle cut-off), hence at most twice the input speed for circular obstacles with centred reference.", "quantifier": "any number of obstacles, all velocities", "why_tests_cant": "unbounded number of obstacles", "anchors": ["src/Modulation.cpp: modulate_velocity"]}
{"id": "C44", "title": "Obstacle motion is compensated", "statement": "compute_relative_velocities subtracts from the agent velocity the weighted sum of the obstacles' velocities at the agent (linear + angular x offset), each attenuated by exp(-(max(1,d)-1)); the two returned vectors add up to the agent velocity.", "quantifier": "any number of obstacles with any velocities", "why_tests_cant": "unbounded lists, a continuum", "anchors": ["src/Modulation.cpp: compute_relative_velocities"]}
{"id": "C45", "title": "Avoidance works for every direction of motion", "statement": "Impenetrability of the final velocity holds for every agent velocity, in particular for motion along the z axis.", "quantifier": "all velocities including vertical", "why_tests_cant": "the failing set has measure zero", "anchors": ["src/Modulation.cpp: compute_dynamical_system_frame, modulate_velocity"]}
{"id": "C46", "title": "Result does not depend on the order of the obstacles", "statement": "modulate_velocity gives the same velocity for every ordering of the obstacle list (hence for every naming of the obstacles).", "quantifier": "all permutations of all obstacle lists", "why_tests_cant": "n! orders", "anchors": ["src/Modulation.cpp: modulate_velocity", "src/Environment.cpp: update"]}
{"id": "C47", "title": "Planar modulation only shifts reference points, to the middle of the chord", "statement": "modulate_velocity with planar_modulation changes nothing but reference positions; a shifted reference position is the midpoint of the chord cut by the heading line, lies in the obstacle, and an obstacle whose ellipse the heading line misses is unchanged. Without planar_modulation no obstacle is changed at all.", "quantifier": "all obstacles, agents, headings", "why_tests_cant": "frame condition and a continuum", "anchors": ["src/Obstacle/Obstacle.cpp: shift_reference_point", "src/Modulation.cpp: modulate_velocity"]}
{"id": "C48", "title": "Planar situations stay planar", "statement": "If the agent, its velocity, and all (z-rotated) obstacles, their reference points and velocities lie in the plane z=0, the modulated velocity has zero z component.", "quantifier": "all planar configurations with any number of obstacles", "why_tests_cant": "unbounded number of obstacles", "anchors": ["src/Modulation.cpp: modulate_velocity"]}
{"id": "C49", "title": "Agent envelope follows the agent", "statement": "After any sequence of pose/velocity setters the envelope is the ellipsoid centred 0.5 ahead of the agent along its velocity, with the matching half lengths and heading, and it contains the agent's position.", "quantifier": "all histories of setters", "why_tests_cant": "histories", "anchors": ["src/Agent.cpp: update_envelope", "include/DynamicObstacleAvoidance/Agent.hpp"]}
{"id": "C50", "title": "Safety margin changes take effect immediately", "statement": "After set_safety_margin the envelope used by local modulation reflects the new margin.", "quantifier": "all histories of setters", "why_tests_cant": "histories", "anchors": ["include/DynamicObstacleAvoidance/Agent.hpp: set_safety_margin", "src/Agent.cpp: update_envelope"]}
{"id": "C51", "title": "Copies of agents are usable and independent", "statement": "Copying an agent (copy constructor, assignment, transformed()) gives an agent on which every operation is defined and whose later changes do not affect the original.", "quantifier": "all agents, all later histories", "why_tests_cant": "undefined behaviour and aliasing are not test failures", "anchors": ["src/Agent.cpp: Agent(const Agent&)", "include/DynamicObstacleAvoidance/Agent.hpp: transformed"]}
{"id": "C52", "title": "in_obstacle is true whenever the agent is deep inside, and only when its safety disc touches", "statement": "in_obstacle(o) is true if the agent's position is inside an ellipsoid o, and if it is true some point of o lies within max(0.1, margin) of the agent in the x-y plane.", "quantifier": "all agents and ellipsoids", "why_tests_cant": "a continuum", "anchors": ["src/Agent.cpp: in_obstacle"]}
{"id": "C53", "title": "exist_path is the separation test", "statement": "exist_path(target, obstacles) is false exactly when some closed obstacle contains exactly one of agent and target; so it is symmetric in agent and target, true for an empty list and independent of the obstacle order.", "quantifier": "all lists of obstacles, agents and targets", "why_tests_cant": "unbounded lists", "anchors": ["src/Agent.cpp: exist_path"]}
{"id": "C54", "title": "Hull radii respect the minimum radius", "statement": "After compute_from_primitives every polar surface point of a hull has radius at least min_radius.", "quantifier": "all primitives, resolutions, previous hull contents", "why_tests_cant": "histories and unbounded resolution", "anchors": ["src/Obstacle/StarShapeHull.cpp: compute_from_primitives"]}
{"id": "C55", "title": "A hull depends only on its primitives, not on its history", "statement": "compute_from_primitives gives the same hull whatever the hull held before; in particular calling update_hull twice equals calling it once.", "quantifier": "all previous contents", "why_tests_cant": "histories", "anchors": ["src/Obstacle/StarShapeHull.cpp: compute_from_primitives", "src/Obstacle/Aggregate.cpp: update_hull"]}
{"id": "C56", "title": "Hull queries are defined for every point", "statement": "compute_distance_to_point, compute_normal_to_agent and point_is_inside of a computed hull read only existing surface points, for every query point.", "quantifier": "all hulls, all points", "why_tests_cant": "out-of-range column access is undefined behaviour on a thin set of angles", "anchors": ["src/Obstacle/StarShapeHull.cpp", "src/Utils/MathTools.cpp: find_closest_points"]}
{"id": "C57", "title": "Hull distance is consistent with inside test", "statement": "For an outside hull distance < 1 exactly when point_is_inside; for an inside hull distance > 1 exactly when point_is_inside; both are 1 at the surface.", "quantifier": "all hulls and points", "why_tests_cant": "a continuum", "anchors": ["src/Obstacle/StarShapeHull.cpp: compute_distance_to_point, point_is_inside"]}
{"id": "C58", "title": "is_closed means every direction is blocked", "statement": "is_closed() of a hull holds exactly when every surface radius exceeds 1.2*min_radius; an aggregate is closed exactly when its outside hull is; every other obstacle is closed.", "quantifier": "all hulls", "why_tests_cant": "all resolutions and radii", "anchors": ["src/Obstacle/StarShapeHull.cpp: is_closed", "include/DynamicObstacleAvoidance/Obstacle/Aggregate.hpp: is_closed", "include/DynamicObstacleAvoidance/Obstacle/Obstacle.hpp: is_closed"]}
{"id": "C59", "title": "Constructors leave no uninitialised state", "statement": "Every public constructor of an obstacle sets position, reference position, margins and shape so that all queries are defined.", "quantifier": "all constructors and arguments", "why_tests_cant": "reading uninitialised memory is undefined behaviour", "anchors": ["src/Obstacle/Obstacle.cpp: constructors", "src/Obstacle/Ellipsoid.cpp: constructors"]}
{"id": "C60", "title": "The agent's safety margin is honoured by every obstacle kind", "statement": "compute_distance_to_agent takes the agent's safety margin into account: a larger margin gives a smaller distance, also for aggregates.", "quantifier": "all obstacles, agents, margins", "why_tests_cant": "a continuum", "anchors": ["src/Obstacle/StarShapeHull.cpp: compute_distance_to_point", "src/Obstacle/Aggregate.cpp: compute_distance_to_point"]}
{"id": "C61", "title": "modulate_velocity returns normally on initialised ellipsoids", "statement": "For every list of live ellipsoids with initialised reference positions and every agent with an envelope, modulate_velocity throws nothing and has no undefined behaviour, for all option values and all arithmetic (including NaN and infinities), and leaves the obstacles initialised.", "quantifier": "all lists, agents, options, all scalar types", "why_tests_cant": "unbounded lists and all double values", "anchors": ["src/Modulation.cpp: modulate_velocity"]}
{"id": "C62", "title": "The surface point of a ray is the farthest or nearest intersection", "statement": "For each ray, the hull uses among the intersection points on the ray the farthest (outside hull) or nearest (inside hull) one, adds or subtracts the safety margin and clips at min_radius; without such a point the radius is min_radius plus or minus the margin, clipped.", "quantifier": "all lists of intersection points, angles, margins, both kinds", "why_tests_cant": "unbounded lists, a continuum of values", "anchors": ["src/Obstacle/StarShapeHull.cpp: compute_from_primitives lines 66-86"]}
{"id": "C63", "title": "An aggregate contains exactly what its outside hull or one of its primitives contains", "statement": "point_is_inside of an aggregate is true exactly when the outside hull or at least one primitive (at any nesting level) contains the point.", "quantifier": "all heaps, nestings, points", "why_tests_cant": "unbounded nesting", "anchors": ["src/Obstacle/Aggregate.cpp: point_is_inside"]}
{"id": "C64", "title": "The hull follows the boundary of the union of the primitives", "statement": "For ellipses at the height of the reference point, the surface point of a ray before smoothing is where the ray leaves the union of the (inflated) ellipses for the last time (outside hull), or meets one of the boundaries for the first time (inside hull).", "quantifier": "all lists of ellipses, rotations, reference points, angles", "why_tests_cant": "a continuum of configurations", "anchors": ["src/Obstacle/StarShapeHull.cpp: compute_from_primitives", "src/Obstacle/Ellipsoid.cpp: compute_interesection_points"]}
{"id": "C65", "title": "The hull of a disc is the disc", "statement": "Computed repeatedly from a ball with the centre as reference point, all radii of a hull converge to the radius of the ball (or min_radius if larger), the error shrinking by the factor 19 with every computation.", "quantifier": "all resolutions, centres, numbers of computations, both kinds", "why_tests_cant": "unbounded resolution and histories", "anchors": ["src/Obstacle/StarShapeHull.cpp: compute_from_primitives"]}
{"id": "C66", "title": "No exceptional values on regular inputs", "statement": "For ellipsoids with integer curvature, nonzero half lengths and a nonsingular reference basis (in particular whenever the reference point is nearer to the centre than the agent), modulate_velocity in double arithmetic with infinities and NaN (but no rounding) returns a finite velocity, equal to the one of real arithmetic.", "quantifier": "all lists of obstacles, agents, options", "why_tests_cant": "a continuum of inputs; exceptional values appear on null sets", "anchors": ["src/Modulation.cpp: modulate_velocity", "src/Obstacle/Ellipsoid.cpp: all queries"]}
{"id": "C67", "title": "A singular configuration stops the agent", "statement": "If the reference basis of any obstacle is exactly singular (for example the agent is exactly at the reference point), modulate_velocity returns exactly the zero velocity, whatever the other obstacles are.", "quantifier": "all heaps, agents, options, other obstacles with arbitrary (also non-finite) data", "why_tests_cant": "null set of inputs, arbitrary other obstacles", "anchors": ["src/Modulation.cpp: modulate_velocity NaN guard"]}
{"id": "C68", "title": "Short Euler steps do not penetrate", "statement": "Moving by explicit Euler steps of the modulated velocity around one ellipsoid, the agent never enters the obstacle, for every number of steps, provided each step t*|v| is short compared with the half lengths.", "quantifier": "all numbers of steps, initial positions, velocities (changing with time), step sizes below the bound, obstacles", "why_tests_cant": "unbounded histories and a continuum of inputs; the modulation is only impenetrable for continuous time", "anchors": ["src/Modulation.cpp: compute_modulation_matrix", "src/Obstacle/Ellipsoid.cpp"]}
{"id": "C69", "title": "The control loop keeps the agent out of the obstacle", "statement": "The loop set_linear_velocity / modulate_velocity / limit the speed / set_position around one obstacle in the plane: without repulsion the distance never falls below its start value (at most 1) minus 4k/l*1e-8 times the length of the path; with repulsion the agent never touches the safety region.", "quantifier": "all numbers of iterations, gains, targets, speed limits, obstacles, margins, initial positions", "why_tests_cant": "unbounded executions; the small-angle cut-off in modulate_velocity makes every step slightly wrong", "anchors": ["src/Modulation.cpp: modulate_velocity", "tests/testMovingObstacle.cpp: control loop", "tests/testKIT.cpp: control loop"]}
{"id": "C70", "title": "The demonstration programs avoid the obstacles", "statement": "In the control loops of tests/testKIT.cpp, testMovingObstacle.cpp, testWall.cpp, testSingleConfiguration.cpp and test3D.cpp the agent stays outside the safety regions of the obstacles added to the environment.", "quantifier": "all iterations", "why_tests_cant": "the programs only plot; nothing checks the positions", "anchors": ["tests/testKIT.cpp", "tests/testMovingObstacle.cpp", "tests/testWall.cpp", "tests/testSingleConfiguration.cpp", "tests/test3D.cpp", "src/Environment.cpp: add_obstacle, update"]}
{"id": "C71", "title": "The drawn outline is the boundary of the section", "statement": "The solid line that Ellipsoid::draw produces for the plane xy (xz) is a closed line through equidistant parameter values of the boundary of the section of the ellipsoid in that plane of its frame, followed by the marks at position and reference position.", "quantifier": "all ellipsoids, poses, colours", "why_tests_cant": "plots are only looked at", "anchors": ["src/Obstacle/Ellipsoid.cpp: draw"]}
{"id": "C72", "title": "The dashed line is the safety boundary", "statement": "The dashed line that Ellipsoid::draw produces runs along the boundary of the ellipsoid with safety margin.", "quantifier": "all ellipsoids, margins", "why_tests_cant": "plots are only looked at", "anchors": ["src/Obstacle/Ellipsoid.cpp: draw"]}
{"id": "C73", "title": "A plot shows the whole configuration", "statement": "The plotting functions draw every obstacle once, in list order and with cycling colours, aggregates with all their primitives and both hulls, and agent, goal and trajectory in the plane of the respective plot; they never fail on initialised obstacles; figure first, saved and shown exactly on request, closed last.", "quantifier": "all heaps, nestings, lists, options", "why_tests_cant": "unbounded lists and nesting; plots are only looked at", "anchors": ["src/Utils/Plotting/PlottingTools.cpp", "src/Obstacle/Aggregate.cpp: draw", "src/Obstacle/StarShapeHull.cpp: draw"]}
{"id": "C74", "title": "The control loop keeps the agent out of every obstacle of a scene", "statement": "The loop set_linear_velocity / modulate_velocity with repulsion / limit the speed / set_position among any number of static obstacles in the plane whose regions of distance below 1.1 are pairwise disjoint: started outside of all obstacles the agent never touches any of them, for small enough time steps (an explicit bound in terms of the time horizon, the speed limit, the gain and the number of obstacles).", "quantifier": "all numbers of obstacles and iterations, gains, targets, speed limits, powers at least 1, margins, initial positions", "why_tests_cant": "unbounded executions and numbers of obstacles; the interpolation between obstacles is only exact at a surface", "anchors": ["src/Modulation.cpp: modulate_velocity, weight_obstacles", "tests/testKIT.cpp: control loop"]}
{"id": "C75", "title": "The modulation neither accelerates nor turns back without bound", "statement": "The modulated velocity is at most 2*kappa times as long as the desired one, and from distance d >= 1 its component along the desired one is at least 1 - kappa/d times its length, where kappa depends only on the ratio of the half lengths.", "quantifier": "all poses, agents outside or inside, velocities, half lengths, integer curvatures", "why_tests_cant": "a continuum of inputs; the bound is needed for every statement about finite time steps", "anchors": ["src/Modulation.cpp: compute_modulation_matrix", "src/Obstacle/Ellipsoid.cpp"]}
{"id": "C76", "title": "The control loop keeps the agent out of a moving obstacle", "statement": "The loop of tests/testMovingObstacle.cpp (obstacle drawn towards a goal, agent drawn towards a target, modulation with repulsion, speed limit, Euler steps) with the obstacle in the list: started outside, the agent never touches the safety region of the moving obstacle, for every number of iterations.", "quantifier": "all iterations, obstacles, goals, targets, gains, time steps and speed limits meeting explicit bounds", "why_tests_cant": "unbounded executions; the program only plots", "anchors": ["tests/testMovingObstacle.cpp: control loop", "src/Modulation.cpp: modulate_velocity"]}
{"id": "C77", "title": "Rounding errors do not change the modulated velocity", "statement": "modulate_velocity in floating-point arithmetic: the computed velocity is finite and tends to the exact one as the precision grows, whatever the rounding mode, the order of magnitude of the libm errors, and the number of obstacles.", "quantifier": "all arithmetics of a precision, obstacles, poses, agents, velocities", "why_tests_cant": "tests run one arithmetic (the hardware) and have no exact result to compare with", "anchors": ["src/Modulation.cpp: modulate_velocity", "src/Obstacle/Ellipsoid.cpp"]}
{"id": "C78", "title": "An aggregate keeps the agent on its side of the wall", "statement": "Seen from outside, the distance of an aggregate is that of its outside hull and at least 1; seen from inside it is that of the inside hull and exceeds 1 exactly within the inside hull. The normal is perpendicular to the chord between neighbouring surface points of the hull in question and points to the agent's side of the wall; the repulsion points away from the wall: outwards outside, towards the reference point inside. update_hull keeps the kinds of both hulls.", "quantifier": "all aggregates, hull surfaces, points, heaps", "why_tests_cant": "all surfaces and points", "anchors": ["src/Obstacle/Aggregate.cpp", "src/Obstacle/StarShapeHull.cpp: compute_normal_to_agent, compute_distance_to_point"]}
{"id": "C79", "title": "Rounding errors never push the agent into the obstacle", "statement": "The control loop set_linear_velocity / modulate_velocity with repulsion / limit the speed / set_position around one static obstacle in the plane, in floating-point arithmetic: from some precision on, depending only on the initial data, the loop never fails, never produces an infinity or NaN, keeps a fixed gap from the safety region and stays within a fixed distance of the target, for every number of iterations.", "quantifier": "all iterations, all arithmetics above the precision (any rounding mode, any libm with bounded errors), obstacles, poses, targets, gains, time steps, speed limits meeting explicit bounds", "why_tests_cant": "unbounded executions; errors could accumulate; tests run one arithmetic", "anchors": ["tests/testKIT.cpp: control loop", "tests/testMovingObstacle.cpp: control loop", "src/Modulation.cpp: modulate_velocity"]}
{"id": "C80", "title": "The guard and the platform avoid their obstacles together", "statement": "tests/testGuardAvoidance.cpp: the guard stays above its place on the platform, the platform does not turn, and neither of them enters its obstacle, whatever the guard sees and wants, for every number of iterations.", "quantifier": "all environments, options, random numbers, targets, iterations", "why_tests_cant": "random numbers; unbounded executions; two agents that share a heap; the program only plots", "anchors": ["tests/testGuardAvoidance.cpp: control loop", "src/Modulation.cpp: modulate_velocity"]}
{"id": "C81", "title": "The text output shows every value", "statement": "operator<< of obstacles and agents: each line carries its label and exactly the stored numbers; aggregates list the texts of their primitives in order at every nesting level; two obstacles have the same text exactly if they hold the same values; the printed angle and axis describe the rotation of the quaternion; printing never fails on initialised obstacles.", "quantifier": "all heaps, nestings, obstacles, agents, names without line break", "why_tests_cant": "unbounded nesting; two different configurations with the same text cannot be found by comparing expected output", "anchors": ["include/DynamicObstacleAvoidance/Obstacle/Obstacle.hpp: print, operator<<", "include/DynamicObstacleAvoidance/Obstacle/Aggregate.hpp: print", "include/DynamicObstacleAvoidance/Obstacle/Ellipsoid.hpp: print", "include/DynamicObstacleAvoidance/State/Pose.hpp: operator<<", "include/DynamicObstacleAvoidance/State/State.hpp: operator<<", "include/DynamicObstacleAvoidance/Agent.hpp: operator<<"]}
{"id": "C82", "title": "The surface of a hull is impenetrable", "statement": "Hulls and aggregates as obstacles, without repulsion: on their surface the modulated velocity has no part through the surface, so that a short enough step from the surface does not lead to the other side.", "quantifier": "all hulls of either kind, aggregates, points of the surface, velocities", "why_tests_cant": "a continuum of points and velocities; a plot does not show a part through the surface of one percent", "anchors": ["src/Obstacle/StarShapeHull.cpp: compute_normal_to_agent, compute_distance_to_point", "src/Modulation.cpp: modulate_velocity", "src/Utils/MathTools.cpp: find_closest_points"]}
{"id": "C83", "title": "The control loop never crosses the wall of an aggregate", "statement": "The control loop set_linear_velocity / modulate_velocity with repulsion / limit the speed / set_position near an aggregate: an agent that starts outside the outside hull and its primitives stays outside; an agent that starts within the inside hull stays there, even if the target is on the other side of the wall; for every number of iterations, and no call fails.", "quantifier": "all iterations, aggregates, initial positions, targets, gains, time steps and speed limits meeting explicit bounds", "why_tests_cant": "unbounded executions; without repulsion the agent does cross the wall, slowly, so that the margin left by the repulsion has to be quantified", "anchors": ["tests/testConfiguration.cpp: control loop", "tests/testKIT.cpp: control loop", "src/Modulation.cpp: modulate_velocity", "src/Obstacle/Aggregate.cpp", "src/Obstacle/StarShapeHull.cpp: compute_normal_to_agent, compute_distance_to_point"]}
{"id": "C84", "title": "The control loop brings the agent to its target", "statement": "The control loop set_linear_velocity / modulate_velocity with or without repulsion / limit the speed / set_position around an obstacle: the agent converges to the target from every starting point outside, no call fails, and the agent never enters the safety region.", "quantifier": "all iterations, starting points, poses, targets, gains, time steps and speed limits meeting explicit bounds", "why_tests_cant": "a limit of unbounded executions; the set of starting points from which it fails has measure zero, so that random tests never meet it", "anchors": ["tests/testKIT.cpp: control loop", "tests/testConfiguration.cpp: control loop", "src/Modulation.cpp: modulate_velocity"]}
{"id": "C85", "title": "Aggregation and drawing never fail and show each group once", "statement": "tests/testOptimization.cpp, for any scene: aggregate_obstacles followed by plot_configuration returns normally whatever the arithmetic; the obstacles are partitioned into groups, two obstacles being in the same group exactly if a chain of intersecting obstacles links them; each group is drawn once, in the next colour, with a border and a safety curve for each member and, for groups of several, the hull and one cross at the mean of the positions. For the scene of the program itself the groups are e1 e2, e3 e4 e8, e5 e6, e7.", "quantifier": "all scenes of initialised obstacles (nested aggregates included), agents, goals, arithmetics", "why_tests_cant": "the program shows a figure and checks nothing; unbounded number of obstacles", "anchors": ["tests/testOptimization.cpp: main", "src/Utils/ObstacleGeneration/Aggregation.cpp", "src/Utils/Plotting/PlottingTools.cpp"]}
{"id": "C86", "title": "The hull of an aggregate contains its members", "statement": "After an aggregation the hulls of every new aggregate are those of its present members around its present reference position, although they are computed again and again while members are added; the outside hull contains all members, so that an agent outside of the hull and of the members is not led into a member.", "quantifier": "all scenes, groups, poses, agents in front of the hull", "why_tests_cant": "the hull is sampled at 500 angles and smoothed; a plot does not show a missing tip", "anchors": ["src/Obstacle/Aggregate.cpp: add_primitive, update_hull", "src/Obstacle/StarShapeHull.cpp: compute_hulls", "src/Utils/ObstacleGeneration/Aggregation.cpp", "src/Modulation.cpp: modulate_velocity"]}
{"id": "C87", "title": "modulate_velocity returns normally in an environment with aggregates", "statement": "After update() with aggregation in an environment of ellipsoids, modulate_velocity returns normally for every agent and all options: no access out of range, no uninitialised read, no exception.", "quantifier": "all environments of initialised ellipsoids, groups, agents, velocities, options", "why_tests_cant": "undefined behaviour on a set of positions of measure zero (or a wedge of 1e-4), which random tests do not hit; the read past the end goes unnoticed", "anchors": ["src/Obstacle/Aggregate.cpp: compute_normal_to_agent, compute_distance_to_point, point_is_inside", "src/Utils/MathTools.cpp: find_closest_points", "src/Modulation.cpp: modulate_velocity"]}
{"id": "C88", "title": "Obstacles live exactly as long as somebody can reach them", "statement": "Obstacles are shared through std::shared_ptr between the client, the map and the list of the environment and the primitives of aggregates. No obstacle is destroyed while the client can reach it, even after remove_obstacle or a new update(); when nobody can reach an obstacle it is destroyed (no cycle of pointers can be built with add_primitive); repeated calls of update() leave a bounded number of obstacles, although each makes new aggregates.", "quantifier": "all executions of all client programs, orders of destruction, nestings, numbers of updates", "why_tests_cant": "leaks and dangling pointers do not change the results of a test; unbounded executions", "anchors": ["src/Environment.cpp: add_obstacle, remove_obstacle, update, operator[]", "src/Obstacle/Aggregate.cpp: add_primitive", "include/DynamicObstacleAvoidance/Obstacle/Aggregate.hpp: set_reference_position, primitives", "src/Utils/ObstacleGeneration/Aggregation.cpp", "include/DynamicObstacleAvoidance/Environment.hpp: obstacle_map, obstacle_list"]}
{"id": "C89", "title": "Printed numbers are correct to six digits", "statement": "Numbers written by operator<< and print: the text is a decimal numeral with at most six significant digits, no such numeral is nearer to the number and of two equally near ones the one with even sixth digit is written, order and sign are preserved, numbers that stand for a decimal of at most six digits (0.1) are printed as that decimal, infinite values and NaN cannot be taken for numbers; the characters written for a state, an agent or an ellipsoid determine all its numbers to six digits.", "quantifier": "all numbers, states, agents, ellipsoids, names without line break", "why_tests_cant": "a continuum of numbers; rounding at powers of ten and ties; texts that run into each other", "anchors": ["include/DynamicObstacleAvoidance/State/Pose.hpp: operator<<", "include/DynamicObstacleAvoidance/State/State.hpp: operator<<", "include/DynamicObstacleAvoidance/Obstacle/Obstacle.hpp: print, operator<<", "include/DynamicObstacleAvoidance/Obstacle/Ellipsoid.hpp: print", "include/DynamicObstacleAvoidance/Agent.hpp: operator<<"]}
{"id": "C90", "title": "Results do not depend on where obstacles are stored", "statement": "Two memories that contain obstacles made of the same things (same kind, same data, same primitives in the same order) at possibly different addresses, next to possibly different other objects and with possibly different sharing: all queries, modulate_velocity with all options, exist_path and in_obstacle give the same results or fail in the same way; update() lists obstacles made of the same things; the control loops of the demonstration programs move the agent in the same way.", "quantifier": "all pairs of memories, nestings, agents, options, numbers of iterations, arithmetics", "why_tests_cant": "addresses cannot be controlled by a test; a comparison of pointers or a stale alias shows up only for particular layouts", "anchors": ["src/Environment.cpp: update", "src/Utils/ObstacleGeneration/Aggregation.cpp", "src/Modulation.cpp: modulate_velocity", "src/Agent.cpp: exist_path, in_obstacle", "tests/testKIT.cpp: control loop", "tests/testWall.cpp: control loop"]}
{"id": "C91", "title": "Calling update() in every iteration does not change the motion", "statement": "With obstacles at rest that share no primitives, a control loop that calls update() in every iteration, each time building new aggregates, moves the agent exactly as the loop that calls update() once before it, and fails exactly when and how that one fails.", "quantifier": "all environments, nestings, modes, options, numbers of iterations, arithmetics", "why_tests_cant": "equality of unbounded executions that use different objects; planar modulation changes reference positions in between", "anchors": ["src/Environment.cpp: update", "src/Utils/ObstacleGeneration/Aggregation.cpp", "src/Obstacle/Aggregate.cpp: add_primitive", "src/Modulation.cpp: modulate_velocity, shift_reference_point"]}
{"id": "C92", "title": "Obstacles remember what was set", "statement": "After any sequence of calls of the setters (name, pose, position, orientation, velocities, reference position, axis lengths, curvature factors, resolution) on any obstacles, every member of every obstacle has the value written to it last: the reference position also by a call on an aggregate that contains it, position and orientation also by set_pose, orientations scaled to unit norm; everything else is as before. Calls on unrelated obstacles commute. Constructors store their arguments.", "quantifier": "all memories, nestings, sequences of calls on any number of obstacles", "why_tests_cant": "unbounded sequences; a setter that writes one member too many or to the wrong obstacle shows up only in sequences that read that member later", "anchors": ["include/DynamicObstacleAvoidance/Obstacle/Obstacle.hpp: set_name, set_pose, set_position, set_orientation, set_linear_velocity, set_angular_velocity, set_reference_position", "include/DynamicObstacleAvoidance/Obstacle/Aggregate.hpp: set_reference_position", "include/DynamicObstacleAvoidance/Obstacle/Ellipsoid.hpp: set_axis_lengths, set_curvature_factor", "include/DynamicObstacleAvoidance/Obstacle/StarShapeHull.hpp: set_resolution", "src/Obstacle/Obstacle.cpp: constructors", "src/Obstacle/Ellipsoid.cpp: constructors", "src/State/State.cpp"]}
{"id": "C93", "title": "A hull built from a list of obstacles is centred, independent of order, and moves with them", "statement": "StarShapeHull(primitives, ...) returns normally exactly if all pointers are valid and the resolution is at least 2; its position and reference position are the point with the least sum of squared distances to the positions of the obstacles; the radii do not depend on the order of the list; moving all obstacles moves the hull and changes nothing else.", "quantifier": "all lists of obstacles, resolutions, kinds of hull, translations", "why_tests_cant": "a continuum of configurations; sorting hides order dependence in most of them", "anchors": ["src/Obstacle/StarShapeHull.cpp: StarShapeHull, compute_baricenter, compute_from_primitives"]}
{"id": "C94", "title": "Assignment through operator[] stores the obstacle under the name", "statement": "environment[name] = obstacle: if the name is known the assignment returns, from then on environment[name] is the assigned obstacle, every other name means what it meant before, and the following update() uses the assigned obstacle; if the name is unknown it throws and changes nothing. The environment never lists an obstacle twice.", "quantifier": "all histories of calls, names, obstacles, modes", "why_tests_cant": "the reference may point into the map or into the list, depending on the mode and on what update() aggregated before; the difference shows up only in later calls", "anchors": ["src/Environment.cpp: operator[], update", "include/DynamicObstacleAvoidance/Environment.hpp: operator[]"]}
{"id": "C95", "title": "The assertions of the unit tests hold", "statement": "Every test of testState.cpp, testEllipsoidObstacle.cpp, testModulation.cpp and testEnvironment.cpp ends without an exception or undefined behaviour, and all its assertions hold in exact arithmetic, with the tolerances written in the tests and for all values of rand().", "quantifier": "all values of the random numbers; all tests", "why_tests_cant": "a test that passes on one machine says nothing about other values of rand() and about how near the result is to the tolerance; a test that is not run can be wrong", "anchors": ["tests/testState.cpp", "tests/testEllipsoidObstacle.cpp", "tests/testModulation.cpp", "tests/testEnvironment.cpp"]}
{"id": "C96", "title": "Exceptions are rare, can be caught, and say what went wrong", "statement": "The only exceptions are: add_obstacle with a name that is taken, remove_obstacle and operator[] with a name that is not in the environment. All other calls (update, modulate_velocity with all options, exist_path, in_obstacle, the queries and the construction of obstacles, the loops of the programs) throw nothing. Every exception can be caught as const std::exception& and the text of what() determines which of the two errors it was and the name.", "quantifier": "all environments, memories, agents, options, names, arithmetics, numbers of iterations", "why_tests_cant": "unbounded inputs; an exception of the wrong type is seen only when it is thrown", "anchors": ["src/Environment.cpp: add_obstacle, remove_obstacle, operator[], update", "include/DynamicObstacleAvoidance/Exceptions/ObstacleAlreadyExistsException.hpp", "include/DynamicObstacleAvoidance/Exceptions/ObstacleNotInEnvironmentException.hpp", "src/Utils/MathTools.cpp: linspace", "src/Modulation.cpp: modulate_velocity"]}
{"id": "C97", "title": "Results do not depend on the choice of the coordinates", "statement": "Describe the same scene (ellipsoids, agent, velocities, target) in other Cartesian coordinates: shifted, rotated or reflected. Then distances, tests for inside and normals are the same, modulate_velocity gives the same velocity for all options, and the control loop moves the agent along the same path.", "quantifier": "all coordinates, numbers, poses, shapes and motions of ellipsoids, agents, options, numbers of iterations", "why_tests_cant": "a continuum of coordinates for each scene; a distinguished axis in a cross product, a wrong handedness or a vector left in the wrong frame shows up only in particular positions", "anchors": ["src/Modulation.cpp: modulate_velocity, compute_basis_matrices, compute_dynamical_system_frame, compute_relative_velocities, shift_reference_point", "src/Obstacle/Ellipsoid.cpp: compute_distance_to_point, compute_normal_to_agent, compute_repulsion_vector", "tests/testKIT.cpp: control loop"]}
{"id": "C98", "title": "Results do not depend on the units", "statement": "Describe the same scene in other units of length and time: all lengths (positions, axes, margins, target) multiplied by k, all speeds by m, the gain and the time step of the loop converted. Then distances and normals are the same numbers, modulate_velocity gives the same velocity (multiplied by m) for all options, and the control loop moves the agent along the same path.", "quantifier": "all units, numbers, poses, shapes and motions of ellipsoids, agents, options, numbers of iterations", "why_tests_cant": "a continuum of units for each scene; constants in the code that are lengths (1e-4, half a metre of sight) or lengths added to velocities are right in one unit only, the one used by the tests", "anchors": ["src/Modulation.cpp: modulate_velocity, compute_relative_velocities, shift_reference_point", "src/Obstacle/Ellipsoid.cpp: compute_distance_to_point, compute_normal_to_agent, compute_repulsion_vector", "src/Agent.cpp: update_envelope", "tests/testKIT.cpp: control loop"]}
{"id": "C99", "title": "Results do not depend on the origin of the coordinates", "statement": "Seen from another origin (every point x becomes x + t, directions kept), for obstacles of all kinds, hulls, aggregates and nestings of them: all queries give the same results, update() aggregates the same obstacles and builds the same aggregates and hulls seen from the other origin, modulate_velocity gives the same velocity with all options, the control loops move the agent along the same path; what fails from one origin fails in the same way from the other.", "quantifier": "all displacements, memories, nestings, agents, options, numbers of iterations", "why_tests_cant": "a continuum of displacements; a point treated as a direction (a sample, a centre, a reference point) is right near the origin, where the tests are", "anchors": ["src/Obstacle/Ellipsoid.cpp: sample_from_parameterization, is_intersecting_ellipsoid", "src/Obstacle/Aggregate.cpp", "src/Obstacle/StarShapeHull.cpp", "src/Utils/ObstacleGeneration/Aggregation.cpp", "src/Environment.cpp: update", "src/Modulation.cpp: modulate_velocity", "src/Agent.cpp: exist_path, in_obstacle", "tests/testKIT.cpp: control loop", "tests/testWall.cpp: control loop"]}
{"id": "C100", "title": "The standard algorithms are called within their contracts", "statement": "Wherever the code calls std::sort, the comparison it passes is a strict weak ordering on the elements of the range (no NaN among different keys); wherever it calls std::lower_bound, the range is partitioned with respect to the value searched for. Otherwise the call has undefined behaviour.", "quantifier": "all obstacles with finite data, reference points, numbers of rays, query points, names", "why_tests_cant": "a violation shows as a wrong column, a crash or nothing at all, depending on the library and on the number of elements; the tests never look at the order of the columns", "anchors": ["src/Obstacle/StarShapeHull.cpp:74,79 std::sort", "src/Obstacle/Aggregate.cpp:17,53 std::sort", "src/Utils/MathTools.cpp:77 std::sort, :89 std::lower_bound"]}
{"id": "C101", "title": "No exceptional values in hulls and aggregates", "statement": "On ideal doubles (exact arithmetic with infinite values and NaN) update() with aggregation, that is tests of overlap, grouping, names, reference points and hulls, ends as in real arithmetic: the same list, the same finite obstacles in memory, or the same failure. The queries of hulls give the same finite values, and modulate_velocity among ellipsoids, hulls and aggregates gives the same finite velocity or fails in the same way.", "quantifier": "all memories of ellipsoids with nonzero half lengths in the plane, no ray parallel to the y axis of an ellipsoid (true for all rotations about z by rational multiples of pi but the quarter turns), hulls, nested aggregates; for the velocity all options, agents not in the centre of a hull and with a regular reference basis", "why_tests_cant": "the divisions by zero are on a set of measure zero, except for the quarter turns, which clients do use; an infinite slope silently drops a point of the hull", "anchors": ["src/Obstacle/StarShapeHull.cpp: compute_from_primitives", "src/Obstacle/Ellipsoid.cpp: compute_intersection_points", "src/Obstacle/Aggregate.cpp: update_hull", "src/Utils/ObstacleGeneration/Aggregation.cpp", "src/Environment.cpp: update", "src/Modulation.cpp: modulate_velocity"]}
{"id": "C102", "title": "Results do not depend on how std::sort orders equal elements", "statement": "std::sort leaves the order of equal elements unspecified (primitives of the same name, intersection points at the same distance). Whatever order it produces: the name and the centre of an aggregate are the same, and so are its hulls, hence all distances, tests for inside, normals and velocities.", "quantifier": "all permitted orders on every call of std::sort, all primitives, names, reference points, numbers of rays", "why_tests_cant": "each library produces one order; another compiler or another number of elements (std::sort switches algorithm at 16) gives another", "anchors": ["src/Obstacle/Aggregate.cpp:17,53 std::sort", "src/Obstacle/StarShapeHull.cpp:74,79 std::sort"]}
{"id": "C103", "title": "Looking only at obstacles in sight is as safe as looking at all", "statement": "With is_local, modulate_velocity ignores obstacles that the envelope of the agent does not meet. Around obstacles at rest the control loop with repulsion nevertheless keeps the agent outside of all obstacles for ever, whenever it does so without is_local.", "quantifier": "all elliptic obstacles in the plane, agents, margins, targets, gains, time steps, numbers of iterations", "why_tests_cant": "the envelope is compared with 100 sampled points of an obstacle; whether an approach slips between two of them depends on the size of the obstacle and on the place and direction of the approach, a continuum", "anchors": ["src/Modulation.cpp: modulate_velocity (is_local)", "src/Agent.cpp: update_envelope", "src/Obstacle/Ellipsoid.cpp: is_intersecting_ellipsoid", "tests/testKIT.cpp: control loop"]}
{"id": "C104", "title": "A small change of the situation changes the commanded velocity little", "statement": "modulate_velocity is continuous: if position, velocity and margin of the agent and poses, velocities, sizes and reference points of the obstacles change little, so does the velocity it returns. The position of the agent after any number of iterations of the control loop depends continuously on its start.", "quantifier": "all numbers, shapes, poses and motions of ellipsoids, agents, margins, critical distances and powers, options for repulsion, numbers of iterations", "why_tests_cant": "a continuum of situations and of neighbours of each; a jump is on a set of measure zero that samples miss", "anchors": ["src/Modulation.cpp: modulate_velocity, weight_obstacles, compute_relative_velocities, compute_dynamical_system_frame", "src/Obstacle/Ellipsoid.cpp: compute_distance_to_point, compute_normal_to_agent, compute_repulsion_vector", "src/Obstacle/Obstacle.cpp: generate_repulsion_vector", "tests/testKIT.cpp: control loop"]}
{"id": "C105", "title": "An obstacle far away does not matter", "statement": "Carry one of the obstacles of an environment (at rest, moving or turning) farther and farther away, in any direction: the velocity returned by modulate_velocity tends to the one it returns in the environment without this obstacle, whatever the other obstacles do; if it is the only obstacle, to the desired velocity.", "quantifier": "all numbers, shapes, poses and motions of ellipsoids, places in the list, directions, agents, margins, critical distances, positive powers, options for repulsion", "why_tests_cant": "a limit: each test has one distance; a weight that does not decay, a matrix that does not tend to the identity or an angular velocity that grows with the distance shows up only in the limit", "anchors": ["src/Modulation.cpp: weight_obstacles, compute_diagonal_eigenvalues, compute_obstacle_velocity, modulate_velocity", "src/Obstacle/Ellipsoid.cpp: compute_distance_to_point, compute_normal_to_agent", "src/Obstacle/Obstacle.cpp: generate_repulsion_vector"]}
{"id": "C106", "title": "An agent inside an obstacle gets out again", "statement": "If the agent is inside an obstacle (the obstacle appeared or grew at its place, or the first position is there), the control loop brings it out after a bounded number of iterations, and from then on the agent stays outside.", "quantifier": "all sizes, poses and exponents of ellipsoids, positions inside, targets, gains, time steps, options, numbers of iterations", "why_tests_cant": "unbounded number of iterations from a continuum of positions; all tests start outside", "anchors": ["src/Modulation.cpp: modulate_velocity, compute_diagonal_eigenvalues", "src/Obstacle/Obstacle.cpp: generate_repulsion_vector", "src/Obstacle/Ellipsoid.cpp: compute_repulsion_vector", "tests/testKIT.cpp: control loop"]}
{"id": "C107", "title": "An obstacle that is listed several times counts once", "statement": "If an environment contains the same obstacle (same shape, pose, velocities, reference point, margin) several times under different names, modulate_velocity returns the same velocity as if it contained it once.", "quantifier": "all numbers of copies, kinds, shapes, poses and motions of obstacles, other obstacles, agents, critical distances and powers, options", "why_tests_cant": "a continuum of scenes; weights that do not add up to one or a sum in place of a mean show up only with several obstacles at the same distance", "anchors": ["src/Modulation.cpp: weight_obstacles, compute_relative_velocities, modulate_velocity", "src/Obstacle/Obstacle.cpp: generate_repulsion_vector"]}
{"id": "C108", "title": "It does not matter how the agent is turned", "statement": "The avoidance treats the agent as a disc: orientation and angular velocity of the agent have no influence on the velocity returned by modulate_velocity (all options), on in_obstacle and exist_path, on what the calls do to obstacles and envelope, and on the path of the agent in the control loops, also if the orientation is set anew in every iteration; the loops do not turn the agent. In the guard program only the orientation of the platform matters, since the guard is carried by it.", "quantifier": "all obstacles of all kinds, agents, orientations, angular velocities, options, numbers of iterations, number types", "why_tests_cant": "noninterference: a statement about all pairs of runs; the agents of the tests are never turned, and an envelope or a frame that uses the orientation is right for the identity", "anchors": ["src/Modulation.cpp: modulate_velocity", "src/Agent.cpp: update_envelope, in_obstacle, exist_path", "include/DynamicObstacleAvoidance/Agent.hpp: set_orientation, set_angular_velocity", "tests/testKIT.cpp: control loop", "tests/testMovingObstacle.cpp: control loop", "tests/testGuardAvoidance.cpp: control loop"]}
{"id": "C109", "title": "The name of an aggregate identifies it", "statement": "After update, different entries of the obstacle list have different names, the name of an aggregate tells which obstacles it consists of, and operator[] returns every entry of the list for its name, whatever calls were made before.", "quantifier": "all environments, names of obstacles, overlaps, histories of calls, both modes", "why_tests_cant": "the names are glued together with a separator that may itself occur in a name; whether two groups get the same string depends on the names and on which obstacles happen to overlap", "anchors": ["src/Obstacle/Aggregate.cpp:11-30,50-66 Aggregate, add_primitive (name)", "src/Environment.cpp:53-69 operator[]"]}
{"id": "C110", "title": "A removed obstacle leaves no trace", "statement": "Obstacles are added to an environment and removed again, with any number of updates and lookups in between, also calls that throw. If after the next update every name stands for the same obstacle as it did after an earlier update, then obstacles, map and list are what they were then, and so every agent gets the same velocity.", "quantifier": "all environments, obstacles, histories of calls before and in between, both modes", "why_tests_cant": "all sequences of calls, of any length; what remains of the removed obstacle can sit in the others (reference positions), in the map or in the list", "anchors": ["src/Environment.cpp: add_obstacle, remove_obstacle, update, operator[]", "src/Obstacle/Aggregate.cpp: Aggregate, add_primitive", "include/DynamicObstacleAvoidance/Obstacle/Aggregate.hpp:119-126 set_reference_position"]}
{"id": "C111", "title": "What the obstacles are called does not matter", "statement": "Two clients build the same obstacles (same kinds, shapes, poses, velocities, reference points) but give them different names, and register them in any order. Every query of an obstacle has the same answer, after update every agent gets the same velocity from modulate_velocity, and the control loops take it along the same path; if a call fails, it fails for both.", "quantifier": "all obstacles of all kinds, names, orders of registration, agents, options, numbers of iterations, both modes", "why_tests_cant": "a statement about all pairs of runs and all renamings; the names decide the order of the map, hence the order of the list and the order in which aggregation compares obstacles, and a comparison that is not symmetric shows only for some pairs in one of the two orders", "anchors": ["src/Environment.cpp:11-19,46-51 add_obstacle, update", "src/Utils/ObstacleGeneration/Aggregation.cpp: aggregate_obstacles", "src/Obstacle/Ellipsoid.cpp: is_intersecting_ellipsoid", "src/Modulation.cpp: modulate_velocity", "src/Agent.cpp: in_obstacle, exist_path", "tests/testKIT.cpp: control loop", "tests/testWall.cpp: control loop"]}
{"id": "C112", "title": "Agents that share an environment do not get in each other's way", "statement": "Several agents steer by the same environment, each with its own control loop; they take turns in any order, and obstacles may be moved between the turns. Every agent ends in the state it would have reached alone with as many iterations, whatever the others do; all of them get through if each one does alone; the order of the turns does not matter; and nothing but the envelopes of the agents is changed.", "quantifier": "all numbers of agents, schedules, control loops, environments, obstacles, options", "why_tests_cant": "a statement about all interleavings of all runs; the agents share the obstacles through pointers, and modulate_velocity takes the environment by const reference but writes to the obstacles behind it with one of its options", "anchors": ["src/Modulation.cpp:130-151 modulate_velocity", "src/Obstacle/Obstacle.cpp:141-155 shift_reference_point", "src/Agent.cpp:21-35 update_envelope", "tests/testGuardAvoidance.cpp: control loop", "tests/testKIT.cpp: control loop"]}
{"id": "C113", "title": "An agent in a hurry takes the same path", "statement": "Among obstacles at rest modulate_velocity is positively homogeneous for all options: an agent that wants to go mu times as fast in the same direction is commanded mu times the velocity. Hence the path of the control loop depends on gain and time step only through their product: with mu times the gain and the time step divided by mu (and mu times the largest speed, if there is one) the agent passes through the same points.", "quantifier": "all agents, obstacles at rest of all kinds, environments, options, speed factors, gains, time steps, numbers of iterations", "why_tests_cant": "a continuum of speeds and gains; constants in the code that compare speeds with fixed numbers, or terms that are added to a velocity without being one, show only away from the speeds used in the tests", "anchors": ["src/Modulation.cpp: modulate_velocity, compute_relative_velocities", "src/Agent.cpp: update_envelope", "src/Obstacle/Obstacle.cpp: shift_reference_point", "tests/testKIT.cpp: control loop"]}
{"id": "C114", "title": "The control loop remembers nothing but the place of the agent", "statement": "Two agents with equal parameters start among the same obstacles and live different lives: any iterations of the control loops of the tests with other targets, gains, time steps, environments and options, but without planar modulation. If they end at the same place, then every further iteration of a control loop (testKIT.cpp, test3D.cpp, and testWall.cpp if the envelope is not itself an obstacle; with any options) has the same outcome for both, down to the last bit: neither the velocity of the past nor the past envelope has an influence.", "quantifier": "all lives, obstacles of all kinds, constants of the loops, numbers of iterations; every scalar type, rounding included", "why_tests_cant": "tests run each program once from its start; a memory would show only in a comparison of two histories that end at the same place", "anchors": ["src/Agent.cpp: update_envelope, set_linear_velocity, set_position", "src/Modulation.cpp: modulate_velocity", "tests/testKIT.cpp: control loop", "tests/test3D.cpp: control loop", "tests/testWall.cpp: control loop"]}
