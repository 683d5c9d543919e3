# Formal model of dynamic_obstacle_avoidance_cpp in Lean 4

## 1. Method

The C++ code is transcribed function by function into Lean definitions under `lean/Verif/Model`.
Every definition cites the file and lines it models. The model is *generic in the scalar type*: the same
definition is interpreted over four types.

| scalar | meaning | used for |
|---|---|---|
| `ℝ` | exact real arithmetic; division, `sqrt`, `acos`, `pow` totalised as in Mathlib | most theorems, always under guards that exclude the totalised points |
| `Dbl` | "ideal double": a real, `+inf`, `-inf` or `NaN`, with the IEEE/C99 rules for exceptional values but no rounding, no signed zeros, no overflow | theorems about NaN, division by zero, and *transfer* theorems saying that on the guarded inputs the `Dbl` run yields exactly `fin` of the `ℝ` run |
| `Fp A` | the doubles of an arithmetic `A` (`Model/Fp.lean`): every operation is the exact one followed by a monotone rounding, libm has bounded errors; `Arith.Sound` and `Arith.Within δ` say what is assumed of it; `Model/Binary64.lean` defines IEEE 754 formats (nearest, ties to even, gradual underflow, overflow) and proves that they satisfy both | C77, C79 |
| `Float` | hardware doubles | tests only (`Verif/Sanity.lean` replays the repository's unit tests on the model with `#guard`); no theorem |

Undefined behaviour and exceptions are distinct outcomes: `Res β = ok b | throw e | ub u`
(`u` = null dereference, dangling pointer, index out of range, read of an uninitialised value, unbounded recursion).

Objects live in an explicit heap (`List Obj`, pointers are indices), because aggregates share their primitives with the
environment and mutate them. Virtual dispatch is a `match` on the dynamic kind. Recursion through nested aggregates uses
fuel `heap size + 1`: running out of it means a cyclic nesting, i.e. unbounded recursion in C++, reported as `ub`.

Specifications that theorems refer to live in `Verif/Spec`, apart from the model and apart from the proofs; property
theorems live in `Verif/Props`, helper lemmas in `Verif/Lemmas`.

## 2. Plan per property

(See section 5 for the outcome; `MANIFEST.json` has the theorem names.)

* C01-C03 environment: `World.step` (heap + environment) over an inductive `Op`; refinement to `String → Option Ptr` by induction over the op list.
* C04-C07, C12 aggregation: loop invariant over the pairs processed; components stated with Mathlib's `Relation.EqvGen`.
* C08, C09 aggregate naming/centre: induction on the add sequence; permutation invariance of insertion sort.
* C10, C11 expected to be false of the code: negation with a concrete witness plus the part that holds.
* C13-C18 MathTools: list induction, real analysis of `arccos`/`Complex.arg`.
* C19-C21 Pose: quaternion algebra over ℝ (`ring`/`nlinarith`); C20 expected false for |q| > 1.0001.
* C22-C28, C32 Ellipsoid geometry over ℝ: closed forms; the normal is compared with the Fréchet derivative of the modelled distance.
* C29, C30 intersection: soundness holds; completeness and symmetry expected false (sampling, missing override).
* C31 area: expected false (formula is missing the pairwise products).
* C33, C34: sums and `rpow` monotonicity, limits by `Filter.Tendsto`.
* C35-C39, C43, C45, C48 modulation: linear algebra on explicit 3x3 matrices; C35/C37 expected to hold only in the planar case (3D counterexamples); C38 by a scalar ODE comparison argument.
* C40, C41, C42, C44, C46, C47: control flow + sums over lists; C41 over `Dbl`.
* C49-C53 agent: histories of setters; C50, C51 expected false.
* C54-C57, C60 hull: loop invariants over the smoothing loop; C54-C56 expected false.
* C68-C70, C74, C76 control loops: invariants of the distance under Euler steps; C75 the norm bounds they need.
* C77 rounding: convergence along the filter of arithmetics of growing precision, one lemma per operation and function.
* C79 rounded control loop: an invariant set (in the plane, a gap from the surface, a bound on the distance from the target) that the exact iteration maps into its interior even if the modulated velocity has a small relative error and the comparison with 1.1 goes either way. Were it not mapped into itself by all precise arithmetics, an ultrafilter of counterexamples would have a limit, contradicting that. Exact zeros (z components) are tracked separately.
* C83 aggregates: a star-shaped curve between the surface and the range of the repulsion that the agent never crosses; the stretch of the modulation is bounded by the angle between chord and radius.
* C84 convergence: in coordinates along and across the line from the centre to the target the output is a radial and a tangential multiple of the desired velocity. The quotient of the coordinates grows at least linearly, so that the agent ends up in every cone around the line; there it leaves the range of the repulsion for good, the distance from the target decreases, and the decrease tends to 0 only at the target. Around an ellipse (Props/ConvergenceEllipse.lean) the new position is a positive multiple of the old one plus a positive multiple of the target; the agent keeps a uniform distance from the surface because of the repulsion, and in a narrow cone around the line it is drawn to the target up to an error proportional to its distance from the line. Without repulsion (Props/ConvergenceFree.lean) the interpolation of small angles could lead into the ellipse: it mixes in a bit of the desired velocity. It is shown that this happens only if the desired velocity is nearly radial, where the bit is proportional to the distance from the surface, or nearly tangential, where the curvature of the ellipse makes up for it unless the steps are absurdly short. In a narrow cone around the line the distance from the ellipse grows until the agent is close to the target, hence it is bounded from below.
* C85 aggregation followed by drawing: every object stays initialised through merging and the computation of hulls (Lemmas/DrawReady.lean), so that drawing cannot fail; the groups of the scene of testOptimization.cpp are found by exhibiting sample points and bounding the coordinates of the others.
* C86 hulls of aggregates: the hulls of an aggregate are always the last ones computed, after the last change of the members (Lemmas/DrawReady.lean); radii after smoothing are bounded below and above; for the needle of Props/HullNeedle.lean the two columns beside its tip are computed and the modulation evaluated in front of it.
* C87 totality with aggregates: `modulate_velocity` as a `mapM` over the list, each item defined or out of range according to the columns found in the hulls.
* C88 ownership: an inductive definition of all executions with destruction in any order; invariant: pointers outside obstacles and in live obstacles lead to live obstacles, and there is no cycle. There is none because `add_primitive` ends by a recursion over everything nested in the aggregate, which does not return on a cycle. Without cycles a live object that nobody reaches would have an unreached live holder of higher rank.
* C89 digits: a reader for decimal numerals as specification; digits, fraction and exponent are read back; rounding at the scale given by the integer logarithm is compared with every decimal of at most six digits; numbers end where a character follows that is not part of numbers, so that whole texts can be read back.
* C90 addresses: `Spec/Alike.lean` relates objects of two heaps by what they are made of; the queries are compared by induction over the nesting (`Lemmas/Alike.lean`), the aggregation by running both executions in lockstep (`Lemmas/Lockstep.lean`), the loops by a relation between states (`Paired`).
* C91 update in every iteration: the state of the loop with repeated updates is kept beside that of the loop with one update; at each update C90's lockstep lemma is applied to the first heap and the present one. The program `Spec.runUpdating` is a client of the library that does not occur in the repository.
* C92 setters: the specification of a member is the last value written to it by the sequence of calls (`lastOf`), the reference position counting calls on containing aggregates; induction on the sequence, with the nesting invariant under setters.
* C93 hulls of lists: the result of `compute` is a function of the surface points; these have the same radii for permuted lists (C62) and are equal for displaced ones.
* C94 assignment through `operator[]`: effect of `replace` on `find`, first slot of the list with the name; C83 (negation): the scene of C86_negation with the envelope of an agent added (C90).
* C95 the unit tests: each test is a program that returns the list of its assertions; normals and bases are computed exactly for the few rotations that occur, the environment tests follow from C05–C09 and C29.
* C96 exceptions: a predicate "throws nothing, and if it returns then Q" is carried through all functions (Lemmas/NoThrow.lean), with the invariant that hulls of aggregates have at least two columns; texts are compared as lists of characters.
* C97 coordinates: all functions are followed through a change of coordinates (Lemmas/View.lean); the frame of the obstacle turns with it, so that a reflection appears as an exchange of left and right there; the tangents are exchanged in the same way because they are cross products with the vertical axis.
* C98 units: the same functions followed through a change of the units of length and speed (Lemmas/Units.lean): every quantity gets a dimension; what is not homogeneous is either bounded (the cut-off of the repulsion) or shown to break the property. Hulls and aggregates: Lemmas/UnitsHull.lean, with the whole heap converted (`scaledHeap`); normals of hulls are lengths, and the modulation matrix does not depend on them. The unit of time alone (Lemmas/Faster.lean): the geometry is untouched and every velocity is multiplied by the same number, so that all obstacles and all options but the repulsion can be treated by an equation between the two runs.
* C99 origin: the heap seen from another origin (Spec/Origin.lean) is the image of the heap object by object; every operation on the heap, from the queries through `aggregate_obstacles` to the loops, commutes with that image (Lemmas/Origin*.lean). The one operation that does not is the sampling of an ellipsoid, which matters only for tilted obstacles.
* C100 contracts of the standard algorithms: Spec/Library.lean states what `std::sort` and `std::lower_bound` require; the comparisons are the named definitions the model passes to `sortBy`. Over the ideal doubles a comparison of keys is a strict weak ordering iff no key is NaN or no key is less than another; the radii on a ray are finite since a line of infinite or NaN slope has a NaN discriminant and thus no points. For `lower_bound`, the angles of the columns are within 10⁻⁴ of the rays', hence increasing from the second on.
* C101 doubles and reals agree on hulls and aggregates: `toD` embeds reals, vectors, obstacles and memories in the ideal doubles (Lemmas/Dbl). Each function is shown to commute with `toD` under the conditions of Spec/Finite.lean (Lemmas/DblHull, DblUpdate, DblScene), the loops of the aggregation by the invariant `Same`. That no ray of the grid is parallel to an axis rotated by a rational multiple of π follows from the irrationality of π.
* C102 order of equal elements: Spec/Sorting.lean says which results of `std::sort` are permitted and states `compute_from_primitives` as a relation (`Outcome`) that allows any of them on each ray. The radius stored for a ray is determined by the set of points on it; for ellipsoids turned about the vertical axis so is the azimuth, and at one height the polar angle too.
* C103 looking only at obstacles in sight: the envelope covers a disc around the agent of half its width; an obstacle that the next step could enter has a point in that disc, and by C29_deep_partial is found if the disc is larger than the gap between samples. An iteration then is that of C74 or a free step that cannot reach an obstacle.
* C104 continuity: the convergence proofs of C77 once more for families of real data along any filter (limits of all functions of the computation where no comparison is a tie); the sum in angle space needs no direction where the agent is brought to a standstill. The loop by induction over the iterations; the limit of the speed is `max`/division and never jumps.
* C105 far obstacles: seen from an obstacle that leaves along a ray, normal and reference direction depend on the direction only (homogeneity), so they tend to those of the obstacle centred at the origin; the distance grows at least linearly, so weight, deviation of the matrix from the identity and exp(-d) times the velocity tend to 0; the rest is C104 with one item of weight 0 in the limit.
* C106 recovery: inside the obstacle the slope of the distance function along M v is 0, and convexity gives the repulsion a slope of at least 2(1 - f0/d); the error of the interpolation takes at most half of that, so each step gains dt*eta (times the part of the speed that the limit leaves); then C69. Without repulsion M maps the line through the reference point to 0 inside the obstacle.
* C107 copies: obstacles at the same distance have the same weight and the weights add up to 1 (C33), so every weighted sum over copies is the single term. The sight test of `is_local` asks each copy the same question; shifting the reference point of an ellipsoid twice is shifting it once.
* C108 turned agents: a relation between two runs (same place, velocity, margin, look-ahead time, envelope); each call preserves it. For turning between the iterations: of two changes of the state only the second one counts, because `update_envelope` writes all it reads.
* C109 names of aggregates: on lists of characters, gluing with a separator is injective for names without it; with the partition (C05) and the names (C08) this gives different names, and with the rule of `operator[]` (C03) that each is found. Witnesses: two pairs of discs, with the names as parameters.
* C110 no trace: the sorted map is determined by its lookups, and without aggregation a call changes neither heap nor mode; with aggregation the invariant is that the heap is the initial one and every entry of the map is one of a set of obstacles no two of which meet, under its own name. If they may meet: a simulation between the first run of the aggregation and one from any later heap (`aggregateObstacles_later`, the simulation of C12), with the invariant that later objects are aggregates of old ones. Witness: two discs, one removed again; the matrix of the first (C36) before and after.
* C111 names: the map `unname` clears the name of an object; every function of the model from queries to loops commutes with it, shown once per function by case analysis (generic in the number type). The list of an environment is sorted by name, so a renaming permutes it and C46 gives the same velocity; with aggregation the update does nothing if no two obstacles meet; if they meet, chains of positions in the list (C06) are translated to chains of obstacles, which do not depend on the order if the test is symmetric.
* C112 several agents: a schedule moves one agent after the other on one shared heap. Every agent is paired with a private copy of the heap in which it runs alone (the relation `Paired` of C90); the agent that moves makes the same step in both (`iterate_paired`), and for the others only an object changes that none of their obstacles reaches (induction on the schedule). Two agents may share an envelope: the first call of an iteration overwrites everything in it that another agent wrote (`iterate_absorb`), so the pairing is kept up to the old content of the envelope. For obstacles that are changed between the turns the run is compared with the run of the filtered schedule; both heaps agree off the envelopes (`Follows`). Agents are indexed by an arbitrary type with decidable equality; the example and the negation have two.
* C113 hurry: the change of the unit of time (C98_time_partial) read backwards: what is at rest stays the same when all speeds are multiplied, and the modulation keeps everything at rest (C47_frame). The product of gain and time step follows by choosing the factor gain'/gain.
* C114 memory: an iteration without planar modulation leaves the memory as it was except for the envelope, and all that `update_envelope` writes into the envelope is overwritten by the next `update_envelope` (`Forgets`); by induction over the stages of a life the next `set_linear_velocity` makes both memories equal.
* C80 guard and platform: exact positions for all random numbers; with `update()`, the single-obstacle step for the platform with an arbitrary command.
* C58, C59: constructors enumerated; C59 (name-only constructors) expected false.

## 3. Trusted base

* Lean 4.33.0 kernel; axioms `propext`, `Classical.choice`, `Quot.sound` only (checked with `#print axioms`).
* The hand transcription C++ → Lean (cited line by line).
* Semantics assumed for Eigen (3.3), the C++ standard library and libm: see section 4.

## 4. Modelled / not modelled

### Modelled

| C++ | Lean |
|---|---|
| `src/Utils/MathTools.cpp` all functions | `Model/MathTools.lean` |
| Eigen `Vector3d`, `Array3d`, `Matrix3d`, `Quaterniond` operations that occur in the code | `Model/Eigen.lean` |
| `State/Pose.*`, `State/State.*` | `Model/Pose.lean` |
| class layouts, constructors, getters and setters of `Obstacle`, `Ellipsoid`, `StarShapeHull`, `Aggregate` | `Model/Objects.lean` |
| `Obstacle/Ellipsoid.cpp` (distance, normal, inside, repulsion, surface velocity, samples, area, line intersection, ellipsoid-ellipsoid test) | `Model/Ellipsoid.lean` |
| `Obstacle/StarShapeHull.cpp` (construction from primitives, smoothing, queries) | `Model/Hull.lean` |
| virtual dispatch, `Obstacle/Obstacle.cpp`, `Obstacle/Aggregate.cpp` | `Model/Dispatch.lean` |
| `Agent.cpp/.hpp` with the envelope, copies and assignments | `Model/Agent.lean` |
| `Environment.cpp/.hpp`, `Utils/ObstacleGeneration/Aggregation.cpp` | `Model/Environment.lean` |
| `Modulation.cpp` all functions | `Model/Modulation.lean` |
| public calls on a heap with an environment, for histories | `Model/World.lean` |
| holders of `std::shared_ptr`, use counts, destruction | `Model/Ownership.lean` |
| control loops of `tests/testKIT.cpp`, `testMovingObstacle.cpp`, `testWall.cpp`, `testSingleConfiguration.cpp`, `test3D.cpp` | `Model/Loop.lean` |
| `tests/testConfiguration.cpp` (values of `rand()` are parameters) | `Model/Configuration.lean` |
| the setters of obstacles as calls through pointers | `Model/Setters.lean` |
| `StarShapeHull(primitives, …)`, `compute_from_primitives(primitives)` | `Model/HullBuild.lean` |
| `tests/testWall.cpp`, `testSingleConfiguration.cpp`, `test3D.cpp` as programs (figures left out, values of `rand()` are parameters) | `Model/Programs.lean` |
| `tests/testOptimization.cpp` | `Model/Optimization.lean` |
| `tests/testGuardAvoidance.cpp` (two agents; random numbers are parameters) | `Model/Guard.lean` |
| `tests/testState.cpp`, `testEllipsoidObstacle.cpp`, `testModulation.cpp`, `testEnvironment.cpp` (printing left out; `abs` in `testEnvironment.cpp` taken as the absolute value of a real, the stronger reading) | `Model/UnitTests.lean` |
| `Exceptions/*.hpp` (text up to the first zero character) | `Model/Exceptions.lean` |
| `print` and `operator<<` of all classes, as a sequence of characters and numbers | `Model/Print.lean` |
| conversion of numbers to characters by `operator<<` (C standard, `%.6g`) | `Model/Digits.lean` |
| `draw` of all classes, `Utils/Plotting/PlottingTools.cpp` as the sequence of commands given to matplotlib | `Model/Plotting.lean` |

### Simplifications

* Doubles. Over `ℝ` there is no rounding. Over `Fp A` there is, but still only one zero; the order of the additions is that of the
  source (no reassociation, no fused multiply-add). Over `Dbl` there are infinities and NaN but no rounding, no overflow of finite
  results and only one zero (`1/0 = +inf`, also for a zero that would be negative in C++). `-0.0` matters in the code only as
  the sign of an infinity and as an argument of `atan2`.
* `Eigen`: fixed-size operations are evaluated componentwise from left to right. `Quaterniond::normalize` divides by the norm if
  the squared norm is positive. `Matrix3d::inverse` is adjugate divided by determinant. `JacobiSVD`, iterative solvers: not used.
* `std::map<std::string, …>` is a list of pairs with distinct keys in ascending order of keys; `std::string` comparison equals
  Lean's `String` order (both are lexicographic by code units for ASCII names; names are assumed to be valid UTF-8).
* `std::sort` is modelled by a stable sort. The order of equal elements (primitives with equal names, intersection points equally far)
  is unspecified in C++; C102 says which results depend on it and which do not.
* `std::deque`, `std::vector`: lists; `at()` and `operator[]` out of range are `throw` respectively `ub indexOOB`.
* `shared_ptr`: indices into a heap that only grows. Holders, use counts and destruction are modelled on top of it in Model/Ownership.lean (a destroyed object stays in the heap but is no longer live); null pointers are modelled, weak pointers and whole-object assignments `*p = *q` are not.
* `throw new …` (MathTools.cpp, `linspace`) throws a pointer; the model has a distinct exception for it.
* Threads, I/O, timing, memory exhaustion: not modelled.
* `unsigned int` indices are natural numbers; no index in the code exceeds the sizes involved (≤ number of primitives or
  resolution), so wrap-around would need 2^32 objects.
* Hull computation takes the intersection points through the same `compute_interesection_points` as the code; the intermediate
  `Oracle` type in `Model/Hull.lean` only separates the geometric queries from the loop.

### Not modelled

* `matplotlibcpp.hpp` (third party; modelled is only what is passed to it).
* gtest itself; the unit tests are programs in `Model/UnitTests.lean`, and their expectations are also
  replayed in `Verif/Sanity.lean`.
* Python bindings and CMake files.

### Concrete cases

The property theorems with hypotheses are applied to concrete data (or the hypotheses shown for such data), so that they are
seen to be satisfiable: in an
`example` beside it, in the proof of another theorem that is itself applied, or in one of the files `Verif/Cases/*.lean`.

## 5. Outcome

`MANIFEST.json` names the theorems of every property and says what is covered. *proved*: the property as stated, for all inputs,
under the hypotheses named in the note. *partial*: either the code violates the property, then a theorem `Cnn_negation…` has a
concrete witness (or a universally quantified refutation), and the theorems `…_partial` prove the part that holds; or only part of
the domain is covered.

### Where code and intention disagree

1. Name-only constructors leave `reference_position` uninitialised (C59, C61).
2. `Pose` constructor: missing absolute value in the check of the quaternion norm, so long quaternions are accepted (C20).
3. Copying an `Agent` leaves the envelope null; assignment shares it (C51). `set_safety_margin` does not update the envelope (C50);
   constructors do not either (C49).
4. `compute_dynamical_system_frame` treats vertical velocities as degenerate: they are never deflected (C45).
5. `modulate_velocity` without `env.update()` sees no obstacle. None of the demonstration loops calls `update` (C70, C80).
6. The reference basis has `t × r` as third column and an unnormalised tangent: impenetrable only in the plane or if the
   reference direction is the normal (C35, C37).
7. Ellipsoid normals are in the obstacle frame, hull normals in the world frame and not normalised (C25, C57).
8. Line through an ellipse parallel to its y axis: division by zero, no intersection found (C27, C47).
9. The intersection test samples the boundary: incomplete and not symmetric; aggregates as the first operand never intersect (C29, C30).
10. `Aggregate::add_primitive` overwrites the reference positions of primitives recursively (C10); aggregates have zero velocity (C11);
    hulls ignore the margin of the agent (C60).
11. Smoothing of hulls uses old values: radii below `min_radius` (C54), not idempotent (C55). `find_closest_points` may return an
    index one past the end (C16, C56).
12. `set_name` after `add_obstacle` breaks the key/name correspondence; the same pointer may be added under two names; with aggregation
    the list of obstacles is stale until the next `update` (C01-C03).
13. The area formula is that of no ellipsoid (C31).
14. Curvature exponents: normal wrong for different lengths with exponent 2 (C25), so that the agent enters the obstacle, in continuous time (C38_negation) and with steps of any length (C68_negation_curvature); `pow(0,0)` for exponent 1/2 (C48).
15. Surface samples treat every rotation as a rotation about z (C52).
16. Agent exactly at the reference point: NaN, output zero (C67).
17. `Ellipsoid::draw`: safety line equals the plain line (C72), outline in the plane xz is a segment (C71); `plot_configuration` draws the
    agent in the wrong plane in the second subplot (C73).
18. `testSingleConfiguration.cpp`, `test3D.cpp` read an uninitialised vector (C70). In `testWall.cpp` the target is inside of a wall (C70).
19. The safety disc of an agent is not inside its envelope; `compute_hulls` with resolution below 2 throws after it has modified the
    hull; unqualified `abs` in `StarShapeHull.cpp` may be the integer version; `Aggregate::update_center_position` is dead code;
    `Aggregate` of an empty deque has position 0/0. (Observations; no property of their own.)
20. The modulation of an obstacle whose reference point is not its centre may lengthen the velocity without bound (C75); a speed limit
    applied after the modulation removes the guarantee against moving obstacles (C76); a critical distance below 1 removes it among
    several obstacles (C74).
21. Close to the thresholds of the code (half lengths 1e-4, angle 1e-4, critical distance) the result jumps, so that rounding decides (C77).
22. The normal of a hull points to its centre, for outside hulls too, contrary to the normal of an ellipsoid (C78_negation_outward). The modulation only uses it up to sign.
23. `find_closest_points` returns the first column *after* the agent and the next one: the normal of a hull is that of the following chord, so that agents turning counterclockwise about a round hull go through its surface (C82).
24. Exactly behind the centre, as seen from the target, the agent stops at (or is pushed back from) the obstacle and never reaches the target (C84_negation_behind, C84_negation_behind_ellipse, C84_negation_behind_free). A target between the distances 1 and 1.1 is not reached if repulsion is on: the agent is thrown out of a neighbourhood of it again and again (C84_negation_repelled).
25. The hull of an aggregate is sampled at 500 angles and smoothed, so it cuts off the tips of thin members. In front of such a tip the distance of the hull is well above 1: the agent is not repelled and a step leads into the member (C86_negation).
26. After `update()` with aggregation, `modulate_velocity` has undefined behaviour for agents straight in the negative x direction of the reference position of an aggregate (C87_negation; consequence of C16, C56).
27. `operator[]` returns a reference to a slot: assigning to the name of an aggregated obstacle overwrites a slot of the list only, is undone by the next `update()`, and the name is unknown afterwards unless the new obstacle has it (C94_negation); assigning to a key breaks the correspondence of keys and names, so that an obstacle can be listed twice (C94_negation_twice).
28. The unit test `ModulateVelocity` adds obstacles but never calls `update()`: the list is empty, the velocity is returned unchanged and the assertion fails (C95_negation). With the call it passes (C95_repaired_partial).
29. `linspace` throws a pointer (`throw new std::exception()`), which `catch (const std::exception&)` does not catch (C96_negation). `ObstacleNotInEnvironmentException.hpp` tests one macro and defines another, so that it has no effective include guard; harmless as long as only `Environment.cpp` includes it.
30. The vertical axis is distinguished: the tangents of an obstacle and the frame of the velocity are cross products with `UnitZ`, so that tilting the coordinates changes the result (C97_negation). The velocity of an obstacle is multiplied by `basis * basis.transpose()` where the basis is in the frame of the obstacle but the velocity is not, so that the result depends on the orientation even of a ball (C97_negation_moving).
31. Several constants are lengths, so that results depend on the unit: the envelope of a moving agent always reaches half a unit ahead (C98_negation_local), half lengths up to 1e-4 are not divided by (C98_negation_thin), and with unequal exponents the normal adds powers of lengths of different degrees (C98_negation_exponents). The repulsion is a length that is added to a velocity (C98_negation). The minimum radius of the hulls of an aggregate is 1/2 in any units (C98_negation_aggregate). The velocity of a moving hull is multiplied by the squared length of its normal, which is not normalised (C98_negation_moving_hull).
32. The points of an ellipsoid with which `is_intersecting_ellipsoid` tests have z = 0 whatever the height of the ellipsoid is, so the result depends on the height of the origin: two obstacles that meet, one of them tilted, are aggregated in one description of the scene and not in another (C99_negation).
33. `std::sort` and `std::lower_bound` are called outside their contracts: the first for a primitive with half length 0 in x together with another (NaN radii, C100_negation) and by `sorted_cols_by_theta` for a zero vector (C100_negation_theta); the second by almost every query of a hull whose ray −π meets a primitive, since the first column then carries the angle +π (C100_negation_search; C56 is the consequence for the points on that side).
34. An obstacle turned by exactly a quarter about z is missed by the first ray (−π) of a hull centred on it: the ray is parallel to the y axis of its frame, the slope is infinite and `compute_intersection_points` reports nothing, so the hull has the minimum radius there, however far the obstacle reaches (C101_quarter_turn; smoothing spreads the dent to the neighbours). This is in exact arithmetic; with rounding the slope may be huge instead of infinite, which the model does not decide.
35. If two primitives at different heights are equally far from the reference point in the direction of a ray, `std::sort` may put either intersection point first, and the hull stores the height of that one. The normal (a chord of the Cartesian surface) then depends on the library: C102_negation. Distances do not (C102_distance_partial).
36. For deflections below 1e-4 (`Modulation.cpp:194`) the first component of the direction is set to 1 instead of the cosine and the others to the angles instead of their sines, so that a positive multiple of the desired velocity is mixed in. On the surface of an obstacle this points inward (C45_negation_small_angle), and an agent with a grazing desired velocity enters a ball in continuous time (C38_negation_output).
37. `is_local` (used by `testKIT.cpp`) compares the envelope of the agent with 100 sampled points of each obstacle. An agent in front of a long wall slips between two samples: it never sees the wall and walks through it, with and without repulsion (C103_negation). Obstacles with half lengths up to about 1.5 are always seen in time by an agent without margin (C103_local_partial). An agent with margin 1/2 heading past a unit disc does not see the disc and gets into the margin around it (C103_negation_margin).
38. The commanded velocity is not a continuous function of the situation: the repulsion sets in with full strength at distance 1.1 (C104_negation_repulsion: more than 1.9 beside a unit ball, for an agent that does not want to move), and the two branches for deflections below and above 1E-4 do not agree where they meet (C104_negation_small_angle; a jump of the order 1E-8). Elsewhere it is continuous (C104_static_partial).
39. Whether a far obstacle loses its influence depends on an argument: for powers that are not positive the weights do not decrease with the distance, and nothing in modulate_velocity rejects such a power (C105_negation_power).
40. A hull treats left and right differently and in steps: the radius and the normal are those of the next column counterclockwise. A hull that is its own mirror image leads an agent inside on one side and away on the other (C97_negation_hull), and where the direction to the agent passes a column the distance, the test for inside and the velocity jump (C104_negation_hull).
41. The velocity of a moving hull is multiplied by the squared length of its normal, a chord of the surface that is not normalised (C44_hull). Hulls with 500 columns have short chords, so the code takes a moving hull for almost at rest, and the hull runs over an agent in its way (C76_negation_hull); there is no repulsion from hulls.
42. An agent inside an obstacle has no way out without repulsion if its target is on the line through the reference point, because both eigenvalue and repulsion are 0 there (C106_negation); with repulsion it is stuck in the middle of two overlapping obstacles that are not aggregated (C106_negation_between). Hulls do not repel at all (src/Obstacle/Obstacle.cpp:124-128 returns zero), so an agent inside a hull stays there in any case (C106_negation_hull).
43. Nothing detects that an obstacle was added twice under different names. The second copy takes weight from all other obstacles and doubles the repulsion (C107_negation_others, C107_negation_repulsion).
44. The name of an aggregate is glued from the names of its members with `_` (src/Obstacle/Aggregate.cpp:20-26, 55-61), and nothing forbids `_` in a name. So two aggregates can have the same name, or an aggregate the name of an obstacle; `operator[]` then returns the first of the list, or the obstacle, and the other one cannot be reached (C109_negation, C109_negation_taken).
45. Joining an aggregate overwrites the reference position of an obstacle (src/Obstacle/Aggregate.cpp:28, 64, include/DynamicObstacleAvoidance/Obstacle/Aggregate.hpp:119-126) and nothing restores it. After the other members are removed from the environment the obstacle stands alone again, but with the reference position of the former aggregate, so that agents are deflected to another side than before (C110_negation).
46. Names have an influence on the motion: `aggregate_obstacles` asks `obstacles[i]->is_intersecting(*obstacles[j])` only for i < j in the order of the map, which is sorted by name (src/Environment.cpp:18, 48-50, src/Utils/ObstacleGeneration/Aggregation.cpp:11-16), and the test is not symmetric (C29_negation). Two overlapping ellipsoids are merged or not depending on their names (C111_negation).
47. `modulate_velocity` takes a `const Environment&`, but with `planar_modulation` it moves the reference positions of the obstacles behind the shared pointers (src/Modulation.cpp:148-151) and leaves them there. A second agent in the same environment is then steered differently although it does not use the option (C112_negation). tests/testGuardAvoidance.cpp avoids this with an environment and an obstacle for each of its two agents.
48. The repulsion does not depend on the speed of the agent, nor on the gain: an agent that has arrived at its target near an obstacle is moved by a step proportional to `dt` alone, so that paths change with the time step even if gain * dt is kept (C113_negation).

## 6. Mutation tests

`seeded/LOG.jsonl` has one line per wrong program: the definition edited, the edit, the claim it breaks, the theorems that failed and
what was tightened when none did. The mutants are applied to a copy of the project outside `/verif`; every module downstream of
the edited one is recompiled, and a theorem counts as failed if its own proof or a lemma in its proof no longer checks.
