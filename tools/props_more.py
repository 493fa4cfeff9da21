# ---------------------------------------------------------------- added while modelling
P("ComputeContacts keeps the requested extra degrees of freedom",
  "When ComputeContacts from a previous state succeeds, the last extra-dimension coordinates of the returned configuration are those of the requested configuration and all other coordinates are the ones contact generation produced; a failed report is returned as generated.",
  "every environment, previous state and requested configuration", "all configurations and dimensions",
  "src/contact_generation/algorithm.cc:ComputeContacts")
P("No contact is created out of a state without contacts",
  "ComputeContacts from a previous state that has no contact never succeeds and returns a state without contacts, whatever surfaces are available.",
  "every environment and requested configuration", "a universally quantified failure",
  "src/contact_generation/algorithm.cc:ComputeContacts", "src/contact_generation/contact_generation.cc:gen_contacts")
P("Filtering keeps consecutive states reachable",
  "If every state of a plan is reachable from its predecessor (for the reachability test used by the filter), this is still the case after each stage of FilterStates.",
  "every plan and every reachability oracle", "all plans and oracles",
  "src/interpolation/rbprm-path-interpolation.cc:FilterRepositioning", "src/interpolation/rbprm-path-interpolation.cc:FilterBreakCreate", "src/interpolation/rbprm-path-interpolation.cc:tryReplaceStates", "src/interpolation/rbprm-path-interpolation.cc:trySkipStates")
P("A planned state is dated like the sample it was generated for",
  "In the plan built by Interpolate the date of every generated state is the path parameter of the sampled configuration it was generated from (or, after a repositioning, the date of the preceding state).",
  "every list of configurations and every contact generator", "dates drift only after rare failure histories",
  "src/interpolation/rbprm-path-interpolation.cc:Interpolate")
P("States returned by contact generation carry complete contact data",
  "From a previous state whose contact, position, normal and rotation maps have the same keys, ComputeContacts returns - success or failure, repositioned or not - a state whose four maps have the same keys; so does ComputeContacts without previous state.",
  "every environment, previous state and requested configuration", "an invariant over all failure paths",
  "src/contact_generation/algorithm.cc:ComputeContacts", "src/contact_generation/contact_generation.cc:repositionContacts")
P("A failed contact step is reported as repositioned",
  "If ComputeContacts from a previous state with complete contact data fails, or reports more than one broken contact, its report says that the robot was repositioned in place; in particular a normal step breaks at most one contact.",
  "every environment, previous state and requested configuration", "counting argument over all candidate combinations",
  "src/contact_generation/algorithm.cc:ComputeContacts", "src/contact_generation/algorithm.cc:oneStep", "src/contact_generation/contact_generation.cc:maintain_contacts_combinatorial")
P("Planned states count their contacts",
  "Every state after the first in the plan built by Interpolate has nbContacts equal to its number of contacts and complete contact data, if the start state's contact data is complete.",
  "every environment, list of configurations and start state", "an invariant of every failure history",
  "src/interpolation/rbprm-path-interpolation.cc:Interpolate")
P("A completed interpolation served every sample",
  "If Interpolate reaches the end of the list of configurations, contact generation succeeded without repositioning for every configuration after the first, each time from a state of the plan; the requested configuration has the root and extra dofs of the sample and the other joints of the last generated configuration.",
  "every list of configurations and every contact generator", "all histories of failures and repositionings",
  "src/interpolation/rbprm-path-interpolation.cc:Interpolate", "src/interpolation/rbprm-path-interpolation.cc:loadPreviousConfiguration")
P("Generated samples describe real configurations",
  "GenerateSamples returns max(1, nbSamples) samples numbered from 0; each holds the limb segment, effector positions, jacobian and manipulability of one and the same robot configuration: the neutral one for sample 0, the i-th shot one for sample i.",
  "every limb, shooter and number of samples", "all shots and device states",
  "src/sampling/sample.cc:GenerateSamples", "src/sampling/sample.cc:Sample")
P("Loading a sample only writes its limb",
  "Load(sample, q) overwrites exactly the segment of the limb in q; it is idempotent, and loading another sample of the same limb afterwards forgets the first.",
  "every sample and configuration", "all configurations",
  "src/sampling/sample.cc:Load")
P("Limb groups and limb collision validations track the registrations",
  "After any history of limb operations the limbs of a name group are exactly the successfully registered contacting limbs of that name in registration order, every registered contacting limb has its own collision validation knowing the obstacles it was registered with, and the body validation was built from the obstacles of the first one.",
  "every history of operations", "invariant over histories, including refused registrations",
  "src/rbprm-fullbody.cc:AddLimbPrivate")
P("Registering an evaluation function never replaces one",
  "AddHeuristic and AddAnalysis return true iff the name was free; afterwards the name denotes the function that was registered first, and no other name changes.",
  "every history of registrations", "histories of name clashes",
  "src/rbprm-fullbody.cc:AddHeuristic", "src/sampling/heuristic.cc:AddHeuristic", "src/sampling/analysis.cc:AddAnalysis")
P("A validator requires the ROMs of the filter it was built with",
  "RbPrmValidation built with a filter and affordance filters accepts a configuration (default overloads) iff the trunk is free of the given obstacles, the bounds hold, and every ROM of the filter touches an object of one of the affordance types given for it.",
  "every set of ROMs, filters, affordances, configurations", "all combinations of filters and affordances",
  "src/rbprm-validation.cc:RbPrmValidation")
P("Validation overloads agree and validation leaves no trace in the answers",
  "The overloads without filter use the default filter, those without report give the same answer as those with one, and the answer of a validation does not depend on the validations made before.",
  "every history of validations", "histories; hidden mutable pair order",
  "src/rbprm-validation.cc:validate", "src/rbprm-validation.cc:validateRoms")
P("A rejected path is reported with the configuration that was rejected",
  "When the validation of a path fails, the path report holds the validation report of the configuration at the reported parameter; the overloads with and without filter, of the plain and of the dynamic path validation, are defined for every path.",
  "every path, validator behaviour and filter", "path evaluation failures in the middle of a path",
  "src/rbprm-path-validation.cc:validate", "src/dynamic/dynamic-path-validation.cc:validate")
P("Shot orientations respect BoundSO3",
  "After BoundSO3 the Euler angles drawn by the shooter lie in the given limits, every orientation within them can be drawn, and the root quaternion written in the configuration is a unit quaternion, the other coordinates being untouched.",
  "every limits, draw and configuration", "all reals",
  "src/rbprm-shooter.cc:SampleRotation")
P("The shooter samples exactly the surfaces named in the affordance filters",
  "The surfaces on which configurations are shot are the objects of the affordance types named in at least one affordance filter; a type named by several ROMs is counted once.",
  "every affordance map and set of filters", "all combinations of filters",
  "src/rbprm-shooter.cc:getUsedSurfaces")
P("The support polygon is the convex hull of the foot rectangles",
  "Contains(support, point, xs, ys) ends and answers true exactly when the point, seen from above, is in the convex hull of the corners of all contact rectangles (up to the boundary).",
  "every set of contact rectangles and every point", "aligned corners are the generic case for identical feet",
  "src/stability/support.cc:Contains", "src/stability/support.cc:ConvexHull")
P("Membership in a triangle",
  "The test whether the projection of a point falls inside a triangle answers true exactly when all barycentric coordinates of that projection are non-negative.",
  "every non-degenerate triangle and point", "all reals",
  "src/projection/projection.cc:pointInTriangle")
P("The convex hull of contact surfaces ends on every input",
  "geom::convexHull ends on every list of points, duplicates and aligned points included; the result is empty for no points and otherwise is a closed list of input points that starts at a left-most one.",
  "every list of points", "termination on every degenerate input",
  "src/utils/algorithms.cc:convexHull", "src/utils/algorithms.cc:leftMost")
P("geom::contains is membership in the convex hull",
  "geom::contains(points, p) answers true exactly when p, seen from above, is in the convex hull of the points.",
  "every list of points and every point", "all reals, all sizes; degenerate sets",
  "src/utils/algorithms.cc:contains", "src/utils/algorithms.cc:containsHull", "src/utils/algorithms.cc:convexHull")
P("Area, centroid and centre of a polygon",
  "For every closed polygon area() is its area (the absolute value of the sum of signed triangle areas, whatever the reference point), centroid() is its area-weighted centroid and returns its signed area; for a convex polygon the centroid, and for every polygon the centre, are in the convex hull of the vertices.",
  "every closed polygon", "all sizes, all reals",
  "src/utils/algorithms.cc:area", "src/utils/algorithms.cc:centroid", "src/utils/algorithms.cc:center")
P("Sections of a mesh by a plane",
  "intersectSegmentPlane returns points of the segment that are on the plane up to the tolerance, exactly when it is not almost parallel, and never an empty list when the segment meets the plane; intersectPolygonePlane returns a closed polygon of such points of the edges of the mesh, empty only if no edge meets the plane.",
  "every segment, mesh and plane", "parallel and touching cases",
  "src/utils/algorithms.cc:intersectSegmentPlane", "src/utils/algorithms.cc:intersectPolygonePlane")
P("Intersection of two triangles",
  "intersectTriangles(t, t2) is defined for every pair of triangles and returns exactly the points of the edges of t that are on the plane of t2 and inside t2 (up to the tolerance).",
  "every pair of triangles", "vertices on the plane, triangles on one side of it",
  "src/utils/algorithms.cc:intersectTriangles", "src/utils/algorithms.cc:insideTriangle", "src/utils/algorithms.cc:computeTrianglePlaneDistance")
P("Projection of a point inside a contact polygon",
  "projectPointInsidePlan yields a point of the plane that is inside the polygon, equal to the orthogonal projection when this one is inside, and returns its distance to the given point.",
  "every polygon of a plane and every point", "corner regions of the polygon",
  "src/utils/algorithms.cc:projectPointInsidePlan", "src/utils/algorithms.cc:lineSect3D")
P("Supports reduced to a point or a segment",
  "When the support is a single point or a segment, a point is inside exactly when it is nearer than the tolerance to that point or segment.",
  "every degenerate support and every point", "aligned contacts and axis-parallel segments",
  "src/stability/support.cc:DistancePointSegment", "src/stability/support.cc:InPolygon", "src/stability/support.cc:Contains")

P("Constraints read in a mesh",
  "A point satisfies the kinematic constraints loaded from a mesh iff it is not strictly outside of any of its oriented faces and, when a positive minimal distance is given, its height is at least that distance.",
  "every mesh, minimal distance and point", "all meshes and points",
  "src/contact_generation/kinematics_constraints.cc:loadConstraintsFromObj", "src/contact_generation/kinematics_constraints.cc:triangleNormal")
P("Stability constraints are the contact cone at the centre of mass",
  "A position satisfies the stability constraints of a state for an acceleration iff the gravito-inertial wrench at that position satisfies the inequalities of the contact polytope given by the library.",
  "every polytope, acceleration, mass, gravity and position", "all reals",
  "src/contact_generation/reachability.cc:computeStabilityConstraints")
P("Reachability takes the given acceleration into account",
  "isReachable answers for the acceleration that is given, with or without an intermediate state.",
  "every pair of states and acceleration", "repositioning with intermediate state",
  "src/contact_generation/reachability.cc:isReachable", "src/contact_generation/reachability.cc:isReachableIntermediate")
P("The point of a quasi-static transition is feasible",
  "When isReachableDynamic or isReachable with an intermediate state reports a transition as reachable, the reported position of the centre of mass satisfies the constraints that the break and the creation have in common.",
  "every pair of states", "transitions with only a creation or only a break",
  "src/contact_generation/reachability.cc:isReachableIntermediate", "src/contact_generation/reachability.cc:isReachableDynamic")
P("Paths and final state of a dynamic transition",
  "When a dynamic transition is found, its path lasts the sum of the timings, the paths of the phases follow each other and last the time of their phase, all on the curve of the solver, and only the velocity and acceleration in the second state's configuration change; with any other answer the second state is unchanged.",
  "every pair of states, timings and solver", "two or three phases, given or tabulated timings",
  "src/contact_generation/reachability.cc:isReachableDynamic")
P("Dynamic reachability only frees what it allocated",
  "isReachableDynamic deletes only objects that were allocated on the heap.",
  "every call", "undefined behaviour is not observable in a unit test's assertions",
  "src/contact_generation/reachability.cc:isReachableDynamic")

P("Stop-watch pause accumulates",
  "A measure interrupted by pause and resumed by start counts the time elapsed between each start and the following pause or stop, in seconds, in the total and in the last time.",
  "every history of start, pause and stop, in both time taking modes", "all histories and clock readings",
  "src/utils/stop-watch.cc:pause", "src/utils/stop-watch.cc:start")
P("Singular value analyses",
  "The minimum (maximum) singular value analysis returns the least (greatest) singular value of the jacobian, of its first three rows (translation) or of its last three rows (rotation).",
  "every jacobian", "all matrices",
  "src/sampling/analysis.cc:minSing", "src/sampling/analysis.cc:maxSing")
P("Manipulability analysis",
  "The manipulability is not negative, its square is the determinant of the product of the selected jacobian with its transpose, and it is 0 exactly if some direction cannot be produced by the joints.",
  "every jacobian and the three modes", "all matrices",
  "src/sampling/analysis.cc:manipulability")
P("Self collision probability",
  "The analysis returns the fraction of reference configurations of this robot that are free of collision with the limb in the configuration of the sample, in [0, 1], and leaves the configuration of the device unchanged.",
  "every robot, sample and set of reference configurations", "several robots in one process",
  "src/sampling/analysis.cc:selfCollisionProbability", "src/sampling/analysis.cc:FullBodyDB")
P("Joint limit distance",
  "The score only depends on the joints of the limb and their bounds: it grows with the smallest margin, is negative exactly if some joint of the limb is out of its bounds and 0 if the smallest margin is 0.",
  "every limb and configuration", "all chains and effector names",
  "src/sampling/analysis.cc:distanceToLimits", "src/sampling/analysis.cc:distanceRec")
P("Reference configuration score",
  "With positive weights the score is at most 100, it is 100 exactly if all degrees of freedom of the limb are those of the reference, and it does not decrease when all of them come nearer to it.",
  "every limb, configuration and weights", "limbs whose last joint has several degrees of freedom",
  "src/sampling/analysis.cc:referenceConfiguration")
P("The limb of a sample",
  "An analysis evaluates a sample with the limb it was generated for.",
  "every set of limbs of a full body", "several limbs that start at the same joint",
  "src/sampling/analysis.cc:getLimbFromStartRank")
P("Copies of the heuristic parameters",
  "A copy of the heuristic parameters, and the target of an assignment, have the contents of the source.",
  "every parameters", "all members", "src/sampling/heuristic-tools.cc:HeuristicParam")
P("Contacts on the ground",
  "removeNonGroundContacts keeps, unchanged, exactly the contacts that are at most the threshold above the lowest one, hence at least one of a non-empty set.",
  "every set of contacts and threshold", "all heights", "src/sampling/heuristic-tools.cc:removeNonGroundContacts")
P("Projection on a plane and support polygon",
  "The orthogonal projection is the nearest point of the plane; the support polygon consists of the horizontal coordinates of the contacts; transform is a rotation followed by a translation.",
  "every point, non-degenerate plane, rotation and set of contacts", "all reals",
  "src/sampling/heuristic-tools.cc:orthogonalProjection", "src/sampling/heuristic-tools.cc:computeSupportPolygon", "src/sampling/heuristic-tools.cc:transform")
P("Planar convex hull of the heuristics",
  "For every list of points that the comparison tolerance tells apart, the result of convexHull consists of points of the list, without repetition, and has the same convex hull as the list.",
  "every list of points, in any order, with aligned points and repetitions", "all configurations of points",
  "src/sampling/heuristic-tools.cc:convexHull", "src/sampling/heuristic-tools.cc:scanningProcess")
P("Weighted centroid",
  "For a polygon whose vertices are not all equal the computation terminates; the result is the mean of the means of the groups of neighbouring vertices closer than a tenth of the longest edge, and lies in the convex hull of the vertices.",
  "every polygon", "all polygons", "src/sampling/heuristic-tools.cc:weightedCentroidConvex2D")
P("Dynamic heuristic",
  "The dynamic heuristic always terminates; its value is minus the distance of the point of interest to the weighted centroid of the contacts on the ground including the one of the sample; in the point of interest the speed dominates the acceleration along both horizontal axes.",
  "every sample, contacts, position, speed and acceleration", "loops over real numbers",
  "src/sampling/heuristic.cc:dynamicHeuristic")
P("Preferences of the heuristics",
  "Whatever the random numbers, the heuristics rank samples as their names say: EFORT is a non-negative quadratic form on upward surfaces, manipulability prefers flat surfaces, forward (backward) prefers effectors further (less far) in the direction, fixedStep prefers effectors near the reference position ahead.",
  "every pair of samples, direction, normal and random numbers", "random draws and all real values",
  "src/sampling/heuristic.cc:EFORTHeuristic", "src/sampling/heuristic.cc:ForwardHeuristic", "src/sampling/heuristic.cc:fixedStepHeuristic")
P("Dynamic walk heuristic",
  "On flat ground the dynamic walk heuristic never prefers a position across the direction of motion to its mirror image on the limb's own side; without direction it does not depend on the direction nor on the normal.",
  "every sample, direction and position", "angles of all quadrants",
  "src/sampling/heuristic.cc:DynamicWalkHeuristic")
P("Friction rays and foot rectangle of a node",
  "For every surface the friction cone stored in a roadmap node has four unit rays at the slope of the friction coefficient, in two orthogonal tangent directions, and the corners of a rectangular contact are at the foot's sizes from the contact point.",
  "every unit normal, head direction, friction coefficient and foot size", "all reals",
  "src/planner/rbprm-node.cc:computeNodeMatrixForOnePoint")
P("Contact surface of a ROM",
  "Among several surfaces in collision with a ROM the one whose intersection with the ROM is nearest to the reference position is chosen, for each ROM; the contact point lies on the intersection, and there is none if the intersection is empty.",
  "every report, reference and intersection", "all surfaces",
  "src/planner/rbprm-node.cc:chooseBestContactSurface", "src/planner/rbprm-node.cc:approximateContactPoint")
P("Oriented path optimizer",
  "The oriented path optimizer returns a path with the same ends; every element whose oriented version is valid together with its neighbours is replaced by it, and the others are kept.",
  "every path vector and validation oracle", "all paths and validity patterns",
  "src/planner/oriented-path-optimizer.cc:optimize", "src/planner/oriented-path-optimizer.cc:checkReplaceOrientation")
P("Acceleration bounds of an extension",
  "The acceleration bounds used for an extension never exceed, along any axis, the components of the largest admissible acceleration in the direction of the extension, nor the fixed bounds.",
  "every node, target, direction and largest acceleration", "all reals",
  "src/planner/rbprm-steering-kinodynamic.cc:setSteeringMethodBounds")
P("Jumps of the parabola steering method",
  "Whenever the steering method returns a jump, free fall from the first configuration with the take-off velocity it stores reaches the second configuration at the time it gives as length, with the landing velocity it stores; both speeds are within the bounds; the jump is never above both the ceiling and its two ends. No admissible take-off angle at least 0.001 rad above the target is excluded from the searched interval.",
  "every pair of configurations with different horizontal positions, gravity, speed bounds and validation oracle", "all reals; trigonometric case distinctions",
  "src/planner/steering-method-parabola.cc:compute_3D_path", "src/planner/steering-method-parabola.cc:computeCoefficients", "src/planner/steering-method-parabola.cc:second_constraint", "src/planner/steering-method-parabola.cc:sixth_constraint")
P("Timed jump",
  "A timed jump starts and ends at its end configurations, is at every time at the position of the free fall with its velocity and acceleration, has its duration as time range, and its reverse goes through the same configurations backwards.",
  "every returned jump and every time", "all times",
  "src/planner/timed-parabola-path.cc:impl_compute", "src/planner/timed-parabola-path.cc:reverse")
P("Bézier paths",
  "A Bézier path evaluated at the ends of its time range is at its initial and end configurations, is on the curve at every time of its range, interpolates the joints with the fraction of time elapsed, and stays at its ends outside of its range; a path built from waypoints starts and ends at the given configurations' joints.",
  "every curve, pair of configurations and time", "all times and curves",
  "src/interpolation/bezier-path.cc:impl_compute", "src/interpolation/bezier-path.cc:initial", "src/interpolation/bezier-path.cc:end")
P("Random configurations along the reference path",
  "A random configuration for the motion between two states is the configuration of the reference path at the drawn fraction of its duration, which is also its extra degree of freedom, except for the limbs that are free between the two states: each of these is in one of its database samples. Every sample of a free limb can be drawn; a limb with fewer than two samples makes the call throw.",
  "every reference path, pair of states, set of limbs and sequence of random numbers", "all random numbers and databases",
  "src/interpolation/time-constraint-shooter.cc:impl_shoot", "src/interpolation/limb-rrt-shooter.cc:GetVaryingLimb", "src/interpolation/com-rrt-shooter.cc:GetFreeLimbs")
P("Constraints of the motion between two states",
  "Every configuration accepted by the constraints of a motion between two states keeps each contact that both states share at its place (and orientation for surface contacts); effectorRRT and comRRT also keep the centre of mass and the effector on their references and obey the joints that the caller constrains. The configurations of both states are accepted.",
  "every pair of states, configuration and instant", "all configurations and states",
  "src/interpolation/interpolation-constraints.cc:addContactConstraints", "src/interpolation/com-rrt.cc:SetComRRTConstraints", "src/interpolation/effector-rrt.cc:SetEffectorRRTConstraints")
P("Projection on a COM",
  "Projecting a state on a centre of mass returns a configuration of the robot's size whose joints satisfy the contacts and the centre of mass whenever the answer is true, and keeps the extra degrees of freedom of the state.",
  "every state, target and projector", "all projectors and configurations",
  "src/interpolation/com-rrt.cc:projectOnCom")
P("Sizes and continuity of the interpolated path",
  "The path between states returned by the interpolation goes through the configurations of the states in order, its configurations and derivatives have the sizes of the robot's, and it is continuous also when the extra degree of freedom is kept.",
  "every sequence of states and schedule", "all sequences of states",
  "include/hpp/rbprm/interpolation/time-constraint-helper.inl:ConcatenateAndResizePath", "include/hpp/rbprm/interpolation/time-constraint-utils.hh:TimeConfigFromDevice")
P("Effector trajectory",
  "The trajectory of a moving effector starts at rest at its position in the first state, leaves the contact straight along its normal, has continuous position, velocity, acceleration and jerk, lands straight along the normal of the new contact and ends at rest at its position in the second state.",
  "every pair of states, centre-of-mass path and result of the solver within its contract", "all curves",
  "src/interpolation/effector-rrt.cc:generateEndEffectorBezier", "src/interpolation/effector-rrt.cc:fitBeziersToPath", "src/interpolation/effector-rrt.cc:buildPredefinedPath")
P("Height and durations of the take-off",
  "During take-off and landing the effector is never below its contact, its height is monotone and bounded by the maximal height, all durations are positive and the effector does not move during the announced delay, whatever the duration of the centre-of-mass path.",
  "every duration of the centre-of-mass path", "all reals",
  "src/interpolation/effector-rrt.cc:computePredefConstants", "src/interpolation/effector-rrt.cc:generateEndEffectorBezier")
P("Choice of the effector reference",
  "effectorRRT returns the whole-body path that follows the first of its reference curves that can be followed, and stores its three curves under the number of the returned path; if none can be followed, or the effector does not move, it returns the path of comRRT. It returns in every case.",
  "every solver, pair of states and outcome of the planner for each reference", "all outcomes of 19 attempts",
  "src/interpolation/effector-rrt.cc:effectorRRTFromPath", "src/interpolation/effector-rrt.cc:fitBeziersToPath")
P("Effector along a whole-body path",
  "The position of the effector at a fraction of the whole-body motion is its position at the first multiple of 0.01 of the path parameter whose time reaches that fraction of the last time; the search always ends; fractions 0 and 1 give the first and last positions.",
  "every path and fraction", "all paths",
  "src/interpolation/effector-rrt.cc:EndEffectorPath::operator()")
P("Locked joints",
  "Projecting a state to a root configuration fixes the coordinates of exactly the joints that belong to no limb, at their value in the requested configuration; projecting a limb fixes exactly the joints outside the limb, at their value in the current configuration of the robot. The default effector of a limb is the end of its chain of joints.",
  "every tree of joints, set of limbs and configuration", "all trees",
  "src/projection/projection.cc:LockFromRoot", "src/tools.cc:LockJointRec", "src/rbprm-limb.cc:GetEffector")
P("Collision pairs of limbs and body",
  "The collision validation of a limb tests all its joints against all obstacles, except the joints at and below its effector if the collisions of the effector are disabled; the validation of the body tests all joints of the robot except the effectors of the limbs that disable them.",
  "every tree of joints, list of limbs and obstacles", "all trees and histories of limb additions",
  "include/hpp/rbprm/tools.hh:addLimbCollisionRec", "src/rbprm-fullbody.cc:RbPrmFullBody::AddLimbPrivate")
P("Collision tests during a motion",
  "While limbs move between two states, the tests against the obstacles that are dropped are exactly those of the joints outside the moving limbs and of the joints at or below the effectors of moving limbs whose effector collisions are disabled; none is added.",
  "every tree of joints, moving limbs and collision pairs", "all trees",
  "include/hpp/rbprm/interpolation/time-constraint-helper.inl:DisableUnNecessaryCollisions", "include/hpp/rbprm/tools.hh:RemoveNonLimbCollisionRec", "include/hpp/rbprm/tools.hh:RemoveEffectorCollision")
P("Placement of a contact",
  "When the projection of a limb to an obstacle succeeds, the contact point of the effector (its frame moved by the limb's offset) is one millimetre above the requested position along the normal, the normal of the effector is aligned with the obstacle's (or its orientation is the requested one), and for a contact found from a sample the contact point is above a point of the obstacle's triangle; for point and surface contacts, with or without the postural task.",
  "every robot, limb, configuration, obstacle and projector within its contract", "all rotations and positions",
  "src/projection/projection.cc:computeProjectionMatrix", "src/projection/projection.cc:projectEffector", "src/projection/projection.cc:projectSampleToObstacle", "src/tools.cc:GetRotationMatrix")
P("Projections to a root or centre of mass",
  "When the projection of a state to a root position, a root configuration or a position of the centre of mass succeeds, the returned configuration keeps every contact of the state in place and reaches the target; whether it succeeds or not, the returned state has all the other attributes of the given state. They do not throw for states of the robot.",
  "every robot, state and target", "all states and projectors",
  "src/projection/projection.cc:projectToRootPosition", "src/projection/projection.cc:projectToRootConfiguration", "src/projection/projection.cc:projectToComPosition", "src/projection/projection.cc:CreateContactConstraints")
P("Collision-free projection to a centre of mass",
  "When the collision-free projection to a position of the centre of mass succeeds, the configuration keeps the contacts, reaches the target and is free of collisions; it succeeds when the samples of the free limbs give such a configuration.",
  "every robot, state, target and set of samples", "all states and samples",
  "src/projection/projection.cc:projectToColFreeComPosition", "src/projection/projection.cc:setCollisionFree")
P("Projection of a state to an obstacle",
  "When the projection of a limb of a state to an obstacle succeeds, the returned state is consistent, has the limb's contact last with the position, orientation and normal of its effector, and keeps all other contacts, which stay in place; with locked joints only the limb moves. On failure the contact of the limb is removed and nothing else changes.",
  "every robot, state, limb and obstacle", "all states and projectors",
  "src/projection/projection.cc:projectStateToObstacle", "src/projection/projection.cc:projectSampleToObstacle", "src/projection/projection.cc:projectToObstacle")
P("Elementary rotation matrices",
  "GetXRotMatrix, GetYRotMatrix and GetZRotMatrix return the rotation by the given angle about the x, y and z axis.",
  "every angle and content of the uninitialised memory", "all angles",
  "src/tools.cc:GetXRotMatrix", "src/tools.cc:GetYRotMatrix", "src/tools.cc:GetZRotMatrix")
P("Quaternion distance and interpolation",
  "The distance between unit quaternions is the angle of the rotation between them: between 0 and pi, symmetric, zero exactly for the same rotation, the same for opposite quaternions, with the triangle inequality. The interpolation starts at the first, ends at the second up to sign, has unit norm and moves at constant angular speed along the shortest rotation.",
  "every pair of unit quaternions and parameter", "all quaternions",
  "src/tools.cc:interpolate", "src/tools.cc:distance", "src/tools.cc:angleBetweenQuaternions")
P("Device with ranges of motion",
  "Setting the configuration or the number of extra degrees of freedom of an RbPrmDevice does so for all its ROMs and answers whether something changed; the effector reference of a ROM is the last one set, and (0,0,0) if none was set.",
  "every device and history of calls", "all histories",
  "src/rbprm-device.cc:RbPrmDevice::currentConfiguration", "src/rbprm-device.cc:RbPrmDevice::setDimensionExtraConfigSpace", "src/rbprm-device.cc:RbPrmDevice::getEffectorReference", "src/rbprm-device.cc:RbPrmDevice::setEffectorReference")
P("Frames and reference positions of limbs",
  "The normal and the offset of a limb, seen in the robot's neutral configuration, are the ones given when it was added; the reference position of each limb is that of its effector relative to the root in the current reference configuration. Adding a limb does not move the robot.",
  "every robot, state of the device and history of additions, toggles and reference configurations", "all histories",
  "src/rbprm-limb.cc:GetEffectorTransform", "src/rbprm-limb.cc:computeEffectorReferencePosition", "src/rbprm-limb.cc:RbPrmLimb::RbPrmLimb", "src/rbprm-fullbody.cc:RbPrmFullBody::referenceConfig")
P("Effector position predicted by a sample",
  "A sample holds the coordinates of the joints from the limb to its effector, and the effector position it predicts for any placement of the root is the position of the contact point once the sample is loaded; it depends on the joints of the limb only.",
  "every placement of the root when the sample is generated and when it is used, every offset", "all placements",
  "src/sampling/sample.cc:ComputeEffectorPosition", "src/sampling/sample.cc:ComputeEffectorPositionInLimbFrame", "src/sampling/sample.cc:ComputeLength", "src/projection/projection.cc:projectSampleToObstacle")
P("Obstacles with a placement",
  "The position and the normal of a contact are on the surface of the obstacle where it is in the world, whatever the placement of the obstacle.",
  "every obstacle placement, triangle and effector position", "all placements",
  "src/sampling/sample-db.cc:GetCandidates", "src/projection/projection.cc:projectSampleToObstacle")
P("What calls leave in the robot",
  "ComputeContacts, the stability tests, ComputeCentroidalCone, GenerateFullBodyDB and selfCollisionProbability leave the robot in the configuration it was in before the call, with transforms computed for it, and with the computation flag it had, also when they throw.",
  "every robot, configuration and behaviour of the called functions", "all behaviours of the called functions",
  "src/contact_generation/algorithm.cc:ComputeContacts", "src/stability/stability.cc:setupLibrary", "src/stability/stability.cc:IsStable", "src/sampling/analysis.cc:GenerateFullBodyDB", "src/sampling/analysis.cc:selfCollisionProbability")
P("Centroidal cone of a state",
  "ComputeCentroidalCone returns the cone of the wrenches that the contacts of the state can generate for the given friction coefficient; when it cannot be computed the result says so.",
  "every robot, state, friction coefficient and behaviour of the library", "all states",
  "src/stability/stability.cc:ComputeCentroidalCone", "src/stability/stability.cc:setupLibrary")
P("Names of the built-in evaluation functions",
  "The names of the built-in heuristics and analyses denote the functions that they name: fixedStep1, 08, 06 and 04 look 1, 0.8, 0.6 and 0.4 ahead, analyses with the suffix Rot (Tr) use the rotation (translation) rows of the jacobian; there is no other built-in heuristic, and nothing a user registers changes what these names denote.",
  "every sample, direction, normal, parameters and history of registrations", "all samples and histories",
  "src/sampling/heuristic.cc:HeuristicFactory::HeuristicFactory", "src/sampling/analysis.cc:AnalysisFactory::AnalysisFactory", "src/sampling/heuristic.cc:fixedStep08Heuristic")
P("Verdicts of the dynamic reachability test",
  "isReachableDynamic answers 'same root position' exactly when the positions of the root agree; otherwise 'no contact variation' exactly when no limb changes its contact, 'too many variations' exactly when two limbs do, and 'unable to compute' when contacts are only created or only broken and the smaller state has at most one contact; it answers 'quasi-static' only if that is to be tried. It is a success only if the transition is possible.",
  "every pair of states, timings and solver", "all pairs of states",
  "src/contact_generation/reachability.cc:isReachableDynamic")
P("The point that the reachability test looks for",
  "isReachable asks for the position of the centre of mass nearest to the point above the mean of the contact points that both states have in common, at the mean height of the centres of mass of the two states, and gives the answer of the solver for it.",
  "every pair of states and solver", "all pairs of states",
  "src/contact_generation/reachability.cc:isReachable", "src/contact_generation/reachability.cc:intersectionExist")
P("When the interpolation gives up",
  "Interpolate stops before the end of the path exactly at the second failure it notices (failed contact generation, or several contacts broken, unless two recontacts in a row have just happened) or at the twenty-first repositioning; a run that reaches the end had at most one such failure and twenty repositionings.",
  "every contact generation, path and sampling", "all behaviours of contact generation",
  "src/interpolation/rbprm-path-interpolation.cc:RbPrmInterpolation::Interpolate")
P("The foot sizes and the friction given by the user are those of the contacts",
  "The parameters DynamicPlanner/sizeFootX and sizeFootY are the full lengths of the feet: planner and optimisers alike give a contact of a node the four corners of the rectangle with these sides, centred in the contact point and along the direction of the root, and the contact point alone if one of the lengths is not positive (default); DynamicPlanner/friction (default 0.5) is the friction of the contacts and of the jumps, Kinodynamic/velocityBound bounds the velocity of a jump, and jumps are tried only if tryJump is set.",
  "every value of the parameters, ROMs in contact and direction of the root", "all parameter values",
  "src/planner/dynamic-planner.cc:DynamicPlanner", "src/planner/oriented-path-optimizer.cc:OrientedPathOptimizer", "src/planner/random-shortcut-dynamic.cc:RandomShortcutDynamic", "src/planner/steering-method-parabola.cc:SteeringMethodParabola")
P("A planner created on a roadmap works on it",
  "DynamicPlanner::createWithRoadmap(problem, roadmap) gives a planner whose roadmap() is the given one; its steps keep what is in it.",
  "every roadmap and every number of steps", "all roadmaps and histories",
  "src/planner/dynamic-planner.cc:createWithRoadmap", "include/hpp/rbprm/planner/dynamic-planner.hh:roadmap")
P("The contact surfaces of a node depend on its configuration only",
  "The contacts of a node are those of the ROMs that touch a surface of their affordances, each with the surface nearest to the reference position of the limb, whatever was validated before and whatever the random numbers drawn; computing them changes neither the answers of later validations nor the options of the validator.",
  "every history of validations, nodes and optimisations, every random stream", "histories and random streams",
  "src/planner/dynamic-planner.cc:computeGIWC", "src/planner/oriented-path-optimizer.cc:steer", "src/planner/random-shortcut-dynamic.cc:steer", "src/rbprm-validation.cc:computeAllContacts")
P("Obstacles added to and removed from a validation",
  "After any sequence of addObstacle, removeObstacleFromJoint, randomnizeCollisionPairs, computeAllContacts and validations, a configuration is accepted iff no body of the trunk collides with an obstacle that was registered for it (at construction or added) and not removed since, the joint bounds hold, and every ROM of the filter touches one of its initial surfaces that was not removed, or is optional; an added obstacle never serves as contact surface, and removing an obstacle that is not registered does nothing.",
  "every history of operations, every configuration, filter and collision outcome", "histories of arbitrary length",
  "src/rbprm-validation.cc:addObstacle", "src/rbprm-validation.cc:removeObstacleFromJoint", "src/rbprm-validation.cc:randomnizeCollisionPairs")
P("Motions between states keep their contacts",
  "When limbRRT, limbRRTFromPath, comRRT or comRRTFromPath returns a path, it goes through the configurations of the given states in order, and between two states every contact that both have is within 1 mm (and the corresponding angle, for surface contacts) of its place at every instant at which the path can be evaluated; the random configurations of a transition lie on the reference path between the two frames but for the limbs that move.",
  "every list of states, planner, optimiser and schedule of the parallel loop", "all planners' outcomes, instants and thread schedules",
  "src/interpolation/limb-rrt.cc:limbRRT", "src/interpolation/limb-rrt.cc:limbRRTFromPath", "src/interpolation/com-rrt.cc:comRRT", "src/interpolation/com-rrt.cc:comRRTFromPath", "include/hpp/rbprm/interpolation/time-constraint-helper.inl:interpolateStatesFromPathGetter")
P("limbRRT and comRRT return when every transition can be solved",
  "If the planner solves all the transitions in some round, limbRRT returns a path; comRRT first computes a guide that keeps the contacts common to both states, follows the path of the centre of mass, and returns when the planner solves the transition; contacts that count as kept never prevent a transition from being solved.",
  "every pair of states, planner and schedule", "termination for all inputs",
  "src/interpolation/limb-rrt.cc:limbRRT", "src/interpolation/com-rrt.cc:comRRT", "src/interpolation/com-rrt-shooter.cc:operator()")
P("The surface in which a ROM meets an affordance",
  "The intersection computed for a ROM in contact is made of points of the ROM that are, in the world, on the surface of the affordance object: seen from above inside of it, and nearer than 2e-5 to its plane; the normal is the unit normal of that surface and turns with the object, whatever the placements of the two objects and the order of the triangles of their meshes.",
  "every pair of meshes and placements", "all meshes and placements",
  "src/planner/rbprm-node.cc:computeIntersectionSurface", "src/utils/algorithms.cc:GetModel", "src/utils/algorithms.cc:computePlanEquation", "src/utils/algorithms.cc:TriangleNormal", "src/utils/algorithms.cc:convertBVH", "src/utils/algorithms.cc:intersectPolygonePlane")
P("Clipping of polygons given by iterators",
  "compute2DIntersection on iterators returns, for all non-empty polygons, vertices inside the clipping polygon and inside the other one, and a polygon that is inside the clipping polygon unchanged.",
  "every pair of convex polygons", "all polygons of any size",
  "src/utils/algorithms.cc:compute2DIntersection")
P("Centre of a planar polygon",
  "centerPlanar returns the point of the plane n.p + t = 0 on the vertical through the centroid of the polygon, whatever the direction in which the polygon turns; projectZ keeps the horizontal coordinates.",
  "every polygon and plane that is not vertical", "all polygons",
  "src/utils/algorithms.cc:centerPlanar", "src/utils/algorithms.cc:projectZ")
P("Paths accepted by the dynamic path validation",
  "After any registrations, a path accepted by the dynamic path validation was tested at times at most one step apart from one end to the other, each tested configuration is accepted by every registered validation, and where the contacts differ from the initial ones its acceleration is admissible for its contacts; with a filter the same holds for the ROMs of the filter; the order of the registrations does not matter and no null pointer is used.",
  "every sequence of registrations, path, direction, step and earlier validations", "histories, paths and steps of any size",
  "src/dynamic/dynamic-path-validation.cc:validate", "include/hpp/rbprm/dynamic/dynamic-path-validation.hh:addDynamicValidator", "src/rbprm-path-validation.cc:add")
P("The shooter pushes a colliding trunk out of the obstacle",
  "When the trunk is in collision during a shot, the shooter moves its root along the outward unit normal of the triangle in contact, in the world, by the penetration depth and 3 cm, so that a point at most as deep as reported is at least 3 cm outside afterwards, and goes on from there; without mesh the direction is the vertical.",
  "every obstacle, placement, triangle, depth and configuration", "all meshes and placements",
  "src/rbprm-shooter.cc:normalFromTriangleContact", "src/rbprm-shooter.cc:impl_shoot")
P("The postural task pulls the joints towards the reference",
  "The postural task used in projections costs nothing exactly at the reference posture, with one weight per degree of freedom as given by the user (1 each if the user gave none), a degree of freedom of weight 0 does not count, and neither do the root and the extra degrees of freedom.",
  "every robot, weights and configuration", "all dimensions, weights and configurations",
  "src/projection/projection.cc:CreatePosturalTaskConstraint", "src/rbprm-fullbody.cc:postureWeights")
P("Reports of the stop watch",
  "After any history, report_all of an active watch prints one line for each name ever started, in order, without exception; a line gives the minimum, average, maximum and total of the lapses in milliseconds and their number, with minimum <= average <= maximum; an inactive watch prints nothing and an unknown name throws.",
  "every history of calls", "histories of any length",
  "src/utils/stop-watch.cc:report", "src/utils/stop-watch.cc:report_all")
P("Boxes of the octree of a database",
  "The boxes of a sample database are the cubes of the leaves of its octree, one per leaf under the identifier of the leaf; a sample is inside the box of its voxel and inside no other box.",
  "every octree, resolution and position", "octrees of any size",
  "src/sampling/sample-db.cc:generateBoxesFromOctomap")
P("Every sample of a database can be a contact candidate",
  "Every sample of a database that was constructed is in a voxel of its octree, and a contact of an obstacle with this voxel makes it a candidate.",
  "every list of samples and resolution", "all positions",
  "src/sampling/sample-db.cc:generateOctree", "src/sampling/sample-db.cc:getSamplesPerVoxel", "src/sampling/sample-db.cc:GetCandidates")
P("Copies of paths",
  "A copy of any path of the library (trajectory of the centre of mass, along a curve, under time dependent constraints, Bezier, jump, timed jump) has the same time range and the same value at every time; a copy with constraints obeys them.",
  "every path obtained by any history of creations, copies and extractions, every time, every constraint", "all paths and times",
  "src/interpolation/com-trajectory.cc:ComTrajectory", "src/interpolation/polynom-trajectory.cc:PolynomTrajectory", "src/interpolation/time-constraint-path.cc:TimeConstraintPath", "src/interpolation/bezier-path.cc:BezierPath", "src/planner/parabola-path.cc:ParabolaPath", "src/planner/timed-parabola-path.cc:TimedParabolaPath", "include/hpp/rbprm/interpolation/time-constraint-path.hh:createCopy")
P("Duration of a jump",
  "The duration of a timed jump is that of the free fall, whichever way the jump is constructed: the horizontal distance divided by the horizontal speed of take-off.",
  "every pair of configurations, coefficients, velocities and contents of uninitialised memory", "uninitialised memory; all jumps",
  "src/planner/timed-parabola-path.cc:TimedParabolaPath", "src/planner/timed-parabola-path.cc:computeTimedLength", "src/planner/parabola-path.cc:ParabolaPath")
P("ROMs recorded in a jump",
  "A jump made by the steering method records exactly the ROMs in contact with a surface at take-off and at landing, each once and in order, whatever was computed before; the reversed jump exchanges them, a copy or a part keeps them.",
  "every validator, pair of configurations, set of other validations and history of calls", "all reports; state kept between calls",
  "src/planner/steering-method-parabola.cc:fillROMnames", "src/planner/steering-method-parabola.cc:compute_3D_path", "src/planner/parabola-path.cc:reverse")
P("The states of a contact plan",
  "Every state of a plan returned by Interpolate has complete contact data: a position, a normal and a rotation for exactly its contacts, all of them active limbs of the robot, as many as its counter says; without deep filtering and with a goal in contact with every limb a plan is always returned.",
  "every robot, obstacle set, list of configurations, solver answer, start and goal with complete data, with or without deep filtering", "all answers of the solvers and all lengths of the plan",
  "src/interpolation/rbprm-path-interpolation.cc:Interpolate", "src/interpolation/rbprm-path-interpolation.cc:FilterStates", "src/contact_generation/algorithm.cc:ComputeContacts", "src/projection/projection.cc:projectStateToObstacle")
P("One contact change from a state of a plan to the next one",
  "From each state of the plan returned by Interpolate to the next one, at most one contact is released and at most one is placed (a moved contact counts as both), except where contact generation failed and repositioned the robot, which happens at most twenty times in a plan, and where the filter dropped states.",
  "every robot, obstacle set, list of configurations, solver answer, start and goal with complete contact data, without deep filtering", "all lengths of the plan and all answers of contact generation",
  "src/interpolation/rbprm-path-interpolation.cc:Interpolate", "src/interpolation/rbprm-path-interpolation.cc:addGoalConfig", "src/interpolation/rbprm-path-interpolation.cc:FilterObsolete", "src/contact_generation/algorithm.cc:ComputeContacts", "src/contact_generation/contact_generation.cc:gen_contacts")
P("What the random draws depend on",
  "After a shooter or a full body has been created, the draws of the later calls depend only on the second of that creation, and are consecutive members of one sequence; a seed that the user chooses after the last creation determines all later draws, one chosen before has no effect, and objects created in the same second repeat the same draws.",
  "every generator, every history of seedings, creations and calls, every function that draws", "all histories of the process",
  "src/rbprm-shooter.cc:RbPrmShooter::create", "src/sampling/heuristic.cc:HeuristicFactory::HeuristicFactory", "include/hpp/rbprm/rbprm-fullbody.hh:RbPrmFullBody::factory_")
P("What was checked of the states of a plan",
  "Each state of a plan that contact generation made, not by repositioning the robot in place, has at least two contacts, is in static equilibrium with at least the required robustness, comes from a configuration free of collision by releasing at most one contact and placing at most one, whose limb is free of collision, and is reachable from the state before if that is asked for; the other states are the start, the goal, states repositioned after a failure, moves of one limb to its place in the goal, and collision free states rebuilt by deep filtering.",
  "every robot, obstacle set, list of configurations, robustness threshold, solver answer, start and goal with complete contact data, with and without deep filtering", "all lengths of the plan and all answers of the solvers",
  "src/contact_generation/algorithm.cc:ComputeContacts", "src/contact_generation/algorithm.cc:oneStep", "src/contact_generation/contact_generation.cc:gen_contacts", "src/contact_generation/contact_generation.cc:maintain_contacts", "src/interpolation/rbprm-path-interpolation.cc:Interpolate")
P("What was checked of the edges of a dynamic plan's roadmap",
  "After any number of steps of the dynamic planner with the kinodynamic steering method and the path validation of this library, every edge of the roadmap leads along its path from the configuration of its first node to that of its second one, configurations of it at most one step apart from end to end, both ends included, were tested and accepted, and it is the beginning of a path leaving its first node or the end of a path arriving at its second one, cut where the acceleration shortly after (before) a change is first (last) not admissible for that node, if the bounds of the acceleration were lowered for the node.",
  "every steering method of hpp-core that joins the given configurations, every validator, step, start roadmap, sequence of random configurations, nearest nodes and contacts, every number of steps", "all sequences of random configurations and all answers of the validators",
  "src/planner/dynamic-planner.cc:DynamicPlanner::oneStep", "src/planner/rbprm-steering-kinodynamic.cc:SteeringMethodKinodynamic::impl_compute", "src/rbprm-path-validation.cc:RbPrmPathValidation::validate", "src/dynamic/dynamic-path-validation.cc:DynamicPathValidation::validate")
P("Where the contacts of a plan come from",
  "Each contact (position, normal, rotation) of the state returned by ComputeContacts is a contact of the previous state, unchanged, or was found: its limb was projected, from one of the samples proposed for it, onto the surface of that sample, is free of collision, and the recorded place is the one of the effector in the configuration found, the recorded normal the one of the surface. All contacts of an initial state were found, and each contact of a plan is one of the start, was found, or is one of the goal or comes from projecting the limb to its place in the goal.",
  "every robot, obstacle set, list of configurations, solver answer, start with complete contact data, and every outcome of contact generation", "all answers of the solvers, all lengths of the plan, all orders of trials",
  "src/contact_generation/algorithm.cc:ComputeContacts", "src/contact_generation/contact_generation.cc:generate_contact", "src/contact_generation/contact_generation.cc:findValidCandidate", "src/interpolation/rbprm-path-interpolation.cc:Interpolate")
P("Contacts lie on the affordance objects",
  "With the sample databases, the projection and the affordance objects of the library, each contact placed by contact generation is one millimetre above a point of a triangle of one of the affordance objects given for its limb, along the unit normal of this triangle, which is the recorded normal; the normal of the effector is along it, and the triangle meets a voxel of the limb's octree which contains a sample of the limb.",
  "every robot, database indexed by its octree, set of affordance objects without flat triangles, solver that satisfies the constraints when it answers true, list of configurations", "all triangles, samples and orientations, all lengths of the plan",
  "src/sampling/sample-db.cc:CollideOctree", "src/projection/projection.cc:projectSampleToObstacle", "src/projection/projection.cc:computeProjectionMatrix", "src/contact_generation/contact_generation.cc:generate_contact", "src/interpolation/rbprm-path-interpolation.cc:Interpolate")
P("The states of a plan are in equilibrium on their recorded contacts",
  "With IsStable as the test of equilibrium and a robustness threshold that is not negative, for each state of a plan that contact generation made, not by repositioning the robot in place, the linear-programming library has been given the support points around the recorded positions of exactly the contacts of that state (four corners for a surface contact, one for a point contact), their recorded normals, the contacts that grasp at the end, and the friction of the robot, and has answered for the centre of mass of the state's configuration that it is in equilibrium, with at least the required robustness if no contact grasps.",
  "every robot, library, list of configurations, threshold that is not negative, answers of the other solvers, start and goal with complete contact data", "all states, contacts and answers of the library",
  "src/stability/stability.cc:IsStable", "src/stability/stability.cc:setupLibrary", "src/contact_generation/contact_generation.cc:findValidCandidate", "src/contact_generation/contact_generation.cc:gen_contacts", "src/interpolation/rbprm-path-interpolation.cc:Interpolate")
P("The rest of the robot stays in place while a limb is tried",
  "While the candidates of a limb are tried, with the postural task or not, the joints that are locked for each projection are exactly those that are not in the limb, at their values in the working state, wherever the projections and the tests of stability and reachability of the earlier candidates have left the shared device; the device agrees with the working state outside the limb whenever a candidate is placed; and every configuration that comes out, also of a failed projection, agrees with the working state at each joint that is not in the limb. Loading a sample of the limb changes no other coordinate.",
  "every tree of joints with different names, limb, list of candidates, projector that keeps the locks it is given, outcome of the validations, and final configuration of the tests", "the device is shared by all functions: all histories of candidates",
  "src/projection/projection.cc:projectSampleToObstacle", "src/projection/projection.cc:computeProjectionMatrix", "src/projection/projection.cc:projectEffector", "src/tools.cc:LockJointRec", "src/sampling/sample.cc:Load", "src/contact_generation/contact_generation.cc:generate_contact")
P("The states of a plan are free of collision",
  "With the collision validations that AddLimb builds, each state of a plan that contact generation made, not by repositioning the robot in place, is free of collision as a whole (self-collisions, and every pair of a joint and an obstacle that the validation of the robot tests), although only the placed limb is tested after its projection; the only exception is the end of the limb that has just been placed, if the user disabled its collisions. So are the states in which limbs move to their places in the goal, and those rebuilt by deep filtering.",
  "every tree of joints, set of limbs and obstacles, collision predicate that depends on the placement of the joints, list of configurations, solver answers, start and goal with complete contact data", "all configurations and all pairs of bodies",
  "src/rbprm-fullbody.cc:AddLimbPrivate", "include/hpp/rbprm/tools.hh:addLimbCollisionRec", "src/contact_generation/contact_generation.cc:maintain_contacts", "src/projection/projection.cc:projectEffector", "src/interpolation/rbprm-path-interpolation.cc:Interpolate")
P("The steps of a quasi-static plan can be made at rest",
  "If reachability is tested in quasi-static mode, for each state of a plan that contact generation made, not by repositioning the robot in place, there is a position of the centre of mass at which the robot stands, at rest, on the contacts that stay while one contact is released, and at which all limbs in contact, with the released one, can follow; and one, for the placed contact, at which it stands on the contacts that stay and all limbs, with the placed one, can follow.",
  "every robot, obstacle set, list of configurations, contact cone, kinematic constraints, solver whose answers satisfy the constraints, start and goal with complete contact data", "all positions of the centre of mass and all answers of the solvers",
  "src/contact_generation/reachability.cc:isReachable", "src/contact_generation/reachability.cc:intersectionExist", "src/contact_generation/contact_generation.cc:maintain_contacts", "src/contact_generation/contact_generation.cc:generate_contact", "src/interpolation/rbprm-path-interpolation.cc:Interpolate")
P("The steps of a dynamic plan can be made in motion",
  "If reachability is tested and the plan is not quasi-static, for each state of a plan that contact generation made, not by repositioning the robot in place, a trajectory of the centre of mass was found from the state before to it, with their velocities, under the constraints of the contacts of both and of the state between them and with the timings of the table, or the step can be made at rest if that was to be tried.",
  "every robot, obstacle set, list of configurations, solver of trajectories, start and goal with complete contact data", "all answers of the solvers, all timings, all lengths of the plan",
  "src/contact_generation/reachability.cc:isReachableDynamic", "src/contact_generation/reachability.cc:isReachableIntermediate", "src/contact_generation/contact_generation.cc:generate_contact", "src/contact_generation/algorithm.cc:ComputeContacts", "src/interpolation/rbprm-path-interpolation.cc:Interpolate")

P("A repositioning in place is checked, and plans are free of collision throughout",
  "When contact generation repositions the robot in place, the state it returns keeps contacts of the state before, as they were; limbs whose contacts were released are moved to postures of their databases free of collision; and if it succeeds, one contact was placed, with all checks of contact generation, equilibrium and reachability included. If the start and the goal are free of collision, so are all states of the plan, but for the ends of limbs whose collisions the user disabled.",
  "every robot, obstacle set, list of configurations, contact groups, solver, start and goal with complete contact data", "all orders of release, all answers of the solvers and validations, all lengths of the plan",
  "src/contact_generation/contact_generation.cc:repositionContacts", "src/contact_generation/algorithm.cc:handleFailure", "src/contact_generation/algorithm.cc:ComputeContacts", "src/interpolation/rbprm-path-interpolation.cc:Interpolate")
P("Contacts are released only if they cannot be kept",
  "Contact generation releases a contact of the previous state, or repositions the robot in place, only if there is no way with all contacts: the robot cannot be moved to the given configuration with them, or it is not in equilibrium there and no free limb can be placed from there. It repositions the robot in place only if there is no way either with any set of contacts with one contact less, from the given configuration.",
  "every robot, obstacle set, previous state with complete contact data, configuration, threshold and mode", "all sets of kept contacts and all attempts for all free limbs",
  "src/contact_generation/algorithm.cc:oneStep", "src/contact_generation/algorithm.cc:genContactFromOneMaintainCombinatorial", "src/contact_generation/contact_generation.cc:maintain_contacts", "src/contact_generation/contact_generation.cc:gen_contacts")
P("The initial state is checked",
  "The contacts of the state computed without a previous state were placed one limb after the other, in the order of the limbs, from the configuration given, each checked for collision; if this configuration is free of collision the state is, but for the ends of limbs whose collisions the user disabled; and the state is in equilibrium with the required robustness.",
  "every robot, obstacle set, configuration, contact groups and threshold", "all orders and groups of limbs, all answers of the solvers and validations",
  "src/contact_generation/algorithm.cc:ComputeContacts", "src/contact_generation/algorithm.cc:ComputeStableContact", "src/contact_generation/contact_generation.cc:generate_contact")
P("Deep filtering invents no contact",
  "Whatever the filtering of a plan, each contact of each of its states is a contact of the start, was found by contact generation, or comes from the goal, or is such a contact placed again, with the same normal, by projecting the limb to its place; the normal of every contact of the filtered plan is the normal of a contact of the same limb before.",
  "every robot, plan, solver, start and goal with complete contact data, with and without deep filtering", "all numbers of passes of the filter, all answers of the solvers",
  "src/interpolation/rbprm-path-interpolation.cc:FilterStates", "src/interpolation/rbprm-path-interpolation.cc:tryReplaceStates", "src/interpolation/rbprm-path-interpolation.cc:trySkipStates", "src/projection/projection.cc:projectStateToObstacle")
P("A contact placed again stays where it was",
  "When deep filtering places a limb again on the contact of another state of the plan, the sole of the limb touches the surface where it did, within one centimetre, and the effector is aligned with the normal.",
  "every robot, limb with a surface contact, contact, configuration", "all positions, normals, orientations and offsets",
  "src/interpolation/rbprm-path-interpolation.cc:tryReplaceStates", "src/interpolation/rbprm-path-interpolation.cc:trySkipStates", "src/projection/projection.cc:projectStateToObstacle", "src/projection/projection.cc:computeProjectionMatrix")
P("Sample databases can be copied and destroyed",
  "Whatever databases a program creates, copies, assigns and destroys, the octree of each database in scope is allocated and no other octree is; each box belongs to a database in scope and is there; no box is deleted twice; when no database is in scope nothing is left.",
  "every sequence of creations, copies, assignments and destructions of sample databases, with any number of boxes", "all lifetimes and interleavings; a double free need not crash a test",
  "src/sampling/sample-db.cc:~SampleDB", "src/sampling/sample-db.cc:generateBoxesFromOctomap", "include/hpp/rbprm/sampling/sample-db.hh:SampleDB")
P("The valid part that the validation of time constrained paths gives continues the tree of the planner",
  "TimeConstraintPathValidation::validate accepts a path only with the whole path as its valid part; the valid part of a rejected path is a part of it that begins at its start, or, if it is validated backwards, one that ends at its end.",
  "every time constrained path, both directions, every distance and every answer of the discretised validation", "the valid part matters for all rejected paths, in both directions and for each reason of the rejection",
  "src/interpolation/time-constraint-path-validation.cc:validate")
P("The search of one step of contact generation is finite, with a known bound",
  "From a consistent state with n contacts, contact generation tries exactly as many states with contacts maintained as there are sets of at most maxBreaks contacts (one for a single contact), and for each of them as many candidates as there are sequences of at most maxCreations free limbs; ComputeContacts makes at most n + 1 rounds with at most one attempt per free limb.",
  "every consistent state, every robot, every bound on breaks and creations", "combinatorial growth: no list of examples gives the count for all numbers of contacts",
  "src/contact_generation/contact_generation.cc:maintain_contacts_combinatorial", "src/contact_generation/contact_generation.cc:gen_contacts_combinatorial", "src/contact_generation/algorithm.cc:oneStep")
P("Contact generation is told the direction of the motion",
  "During an interpolation the direction given to contact generation, and by it to the heuristics, is the unit vector of the motion of the root: of the velocity of the configuration if it has one, of the displacement of the root otherwise.",
  "every configuration of a path and every previous state, with or without extra degrees of freedom", "a wrong direction still gives contacts: a test sees plausible plans",
  "src/interpolation/rbprm-path-interpolation.cc:Interpolate", "src/sampling/heuristic.cc:forwardHeuristic")
P("The heuristics are told the dynamics and the placement of the robot",
  "The heuristics get the speed of the centre of mass and the acceleration that the configuration has among its extra degrees of freedom, zero acceleration without them, the contacts and the name of the limb, and the placement of the root of the state.",
  "every configuration, every number of extra degrees of freedom, every state", "reading other entries of the configuration gives numbers of a plausible size, and does not fail",
  "src/interpolation/rbprm-path-interpolation.cc:Interpolate", "src/contact_generation/contact_generation.cc:gen_contacts", "src/contact_generation/contact_generation.cc:generate_contact", "src/contact_generation/algorithm.cc:ComputeStableContact")
P("The time in the path that contact generation is told is the time of the configuration",
  "Each call of contact generation during an interpolation gets the time at which the path has the given configuration, so that a fixed step heuristic aims at the foothold of the root at t_step later.",
  "every discretised path, every history of successes, failures and repositionings", "the shift accumulates or disappears depending on the whole history of reports",
  "src/interpolation/rbprm-path-interpolation.cc:Interpolate", "include/hpp/rbprm/contact_generation/algorithm.hh:ComputeContacts", "src/sampling/heuristic.cc:fixedStepHeuristic")
P("The contact that is created is the best rated of those that can be used",
  "When contact generation creates a reachable contact for a limb, the sample it uses is one that projects without collision and in equilibrium, and no other candidate that does has a better value of the heuristic; if it creates none no candidate can be used. The candidates are the samples of the limb whose effector lies in a voxel that touches an affordance surface, and each is judged as if it were the only one.",
  "every robot, limb, sample database, heuristic, surfaces, state and configuration, with and without postural task", "all numbers and orders of candidates; that a better one existed is not seen in a plan",
  "src/contact_generation/contact_generation.cc:findValidCandidate", "src/contact_generation/contact_generation.cc:CollideOctree", "src/contact_generation/contact_generation.cc:generate_contact", "src/sampling/sample-db.cc:GetCandidates")
P("Deep filtering leaves nothing to simplify",
  "In a plan returned by deep filtering no frame makes the contact changes of a successor that is directly reachable, no frame only breaks contacts that a directly reachable successor only creates again, each inner frame differs from the one before in its configuration and its contacts, and no frame can be replaced or skipped by the rules of the filter; filtering the plan again, deeply or not, returns it unchanged.",
  "every plan of any length, every answer of the solvers and of the reachability test", "one simplification can make another one possible: only the fixed point for all plans shows that none is left",
  "src/interpolation/rbprm-path-interpolation.cc:FilterStates", "src/interpolation/rbprm-path-interpolation.cc:FilterStatesRec", "src/interpolation/rbprm-path-interpolation.cc:tryReplaceStates", "src/interpolation/rbprm-path-interpolation.cc:trySkipStates")
P("The trunk path that is accepted keeps the limbs in reach of their surfaces",
  "RbPrmPathValidation::validate accepts a path of the trunk iff at each step of the discretisation and at both ends the path has a configuration at which the trunk is free of collision and within its bounds and the range of motion of each limb of the filter reaches one of its surfaces; so each moment of the path is at most one step away from such a configuration. On a refused path the reported time is one at which this fails, and it holds at each step before. The answer does not depend on the validations made before.",
  "every path, step, direction, scene, filter and history of validations", "all times of all paths; the validation reorders its own collision pairs at each call",
  "src/rbprm-path-validation.cc:validate", "src/rbprm-validation.cc:validate", "src/rbprm-rom-validation.cc:validate")
P("A configuration shot for the trunk is one at which the robot can stand",
  "When the shooter finds a configuration within its limits, the trunk there is free of collision, within its bounds, and the range of motion of each limb of the filter reaches one of its surfaces; a path validation with the same filter accepts this configuration.",
  "every scene, filter, history of the validator and sequence of random numbers", "all sequences of random numbers; the configuration is moved along the normal and turned several times before it is accepted",
  "src/rbprm-shooter.cc:impl_shoot", "src/rbprm-validation.cc:validate")
P("The friction cone of a jump, restricted to the vertical plane of the jump",
  "fiveth_constraint returns the half aperture of the section of the friction cone by the vertical plane of the jump: the forces of this plane that the contact can transmit are exactly those at most this angle away from the middle of the section; it refuses when there is no such force.",
  "every unit normal, friction coefficient and heading", "real valued geometry: all cones and planes, with the degenerate positions of the plane",
  "src/steering-method/steering-method-parabola.cc:fiveth_constraint")
P("A random jump is a parabola within the limits of the robot",
  "compute_random_3D_path draws an angle in the interval of the friction cone, a speed up to the limit, and returns a path that starts at the given configuration with this speed and angle, follows the parabola of gravity, ends on it, and stays below the height limit.",
  "every configuration, target, limits and sequence of random numbers", "all random numbers and members; that a member has no value set is invisible in a run that happens to find a plausible one",
  "src/steering-method/steering-method-parabola.cc:compute_random_3D_path")
P("The paths that steer the motion between two states respect the constraints",
  "TimeConstraintSteering links two configurations exactly if both respect the constraints, where the constraints whose value is not prescribed keep that of the first configuration; the path goes from one to the other, lasts their distance, its time is affine, and each of its points where the projection succeeds respects the constraints for its time. Two configurations are linked in both directions or in none.",
  "every set of constraints and projector, every pair of configurations, every time of the path", "all constraints and times; the right hand sides are changed by each evaluation",
  "include/hpp/rbprm/interpolation/time-constraint-steering.hh:impl_compute", "src/interpolation/time-constraint-path.cc:checkPath", "src/interpolation/time-constraint-path.cc:impl_compute")
P("Jumps take off and land within the friction cones of their contacts",
  "The impulses of the take-off and of the landing of a jump that the parabola steering method returns are in the friction cones of the two contacts; third_constraint bounds the take-off angle such that the direction of arrival is in the given interval; the half aperture of fiveth_constraint tells which take-off angles and directions of arrival are in the cone.",
  "every pair of configurations, bounds of speed, contact normals and friction coefficients", "all jumps and all cones; an infeasible jump is valid for every test of collision",
  "src/planner/steering-method-parabola.cc:compute_3D_path", "src/planner/steering-method-parabola.cc:third_constraint", "src/planner/steering-method-parabola.cc:fiveth_constraint")
P("Motions between states keep their contacts whatever the planner does with the paths of the steering method",
  "For a planner and optimisers that only put together paths of TimeConstraintSteering and parts of them, each motion that limbRRT, limbRRTFromPath and comRRTFromPath return goes through all the given states and keeps every contact that two consecutive states share within 1 mm of its place wherever the motion can be evaluated (5 cm for comRRT).",
  "every robot, list of states, reference path, projector that is right when it reports success, planner and optimisers that assemble such paths, and schedule of the threads", "all trees of all planners, and all points of the paths; a contact that slips between two samples of a path is not seen",
  "include/hpp/rbprm/interpolation/time-constraint-steering.hh:impl_compute", "src/interpolation/time-constraint-path.cc:extract", "src/interpolation/limb-rrt.cc:limbRRT", "include/hpp/rbprm/interpolation/time-constraint-helper.inl:interpolateStates")
P("The whole-body motion of effectorRRT follows the trajectory it announces",
  "When effectorRRT returns, the motion leads from the first state to the second, has configurations of the size of the robot unless keepExtraDof is set, and wherever it can be evaluated the contacts that both states share, the centre of mass and the effector are within 1 mm of their references at one fraction of the time; the reference of the effector is the path added to the problem, which begins and ends at rest at its positions in the two states. If no reference can be followed, the motion of comRRT is returned.",
  "every robot, pair of states, references, sound planners for comRRT and each attempt, and schedules of their threads", "all points of all motions and all histories of attempts; the constraints are built in one place, the references in another",
  "src/interpolation/effector-rrt.cc:effectorRRTFromPath", "src/interpolation/effector-rrt.cc:SetEffectorRRTConstraints", "include/hpp/rbprm/interpolation/interpolation-constraints.hh:CreateEffectorConstraint")
P("Time never goes back along the motions between states",
  "For planners that keep only paths whose time does not decrease, the extra degree of freedom of a motion returned by comRRT is a clock: it begins at 0, ends at 1, stays in between and never goes back, within a path and from one to the next; along a motion of effectorRRT the contacts, the centre of mass and the effector follow their references at the fraction shown by such a clock, whether the extra degree of freedom is kept or not.",
  "every pair of states, reference, projector, distance, planner and optimisers that assemble forward paths, and schedule of the threads", "all trees and all points of the paths; a motion that goes back for a moment passes through the right configurations",
  "src/interpolation/time-constraint-path-validation.cc:validate", "include/hpp/rbprm/interpolation/time-constraint-steering.hh:impl_compute", "src/interpolation/time-constraint-path.cc:impl_compute", "src/interpolation/time-constraint-path.cc:extract", "src/interpolation/com-rrt.cc:comRRT", "src/interpolation/effector-rrt.cc:effectorRRTFromPath")
P("The validation of time constraint paths keeps planners from going back in time",
  "What TimeConstraintPathValidation leaves of a path of the steering method, validated from either end, has a time that does not decrease. So if planners and optimisers put together only such paths and forward parts of them, the extra degree of freedom of a motion of comRRT, and the fraction at which a motion of effectorRRT follows its references, is a clock from 0 to 1 that never goes back.",
  "every pair of configurations, set of constraints, projector, answer of the discretised validation, direction of validation; then every pair of states, reference, planner and optimisers, and schedule of the threads", "all rejected and accepted paths: the valid part of a rejected path is seldom looked at",
  "src/interpolation/time-constraint-path-validation.cc:validate", "src/interpolation/time-constraint-path.cc:extract", "include/hpp/rbprm/interpolation/time-constraint-steering.hh:impl_compute", "src/interpolation/com-rrt.cc:comRRT", "src/interpolation/effector-rrt.cc:effectorRRTFromPath")
P("Counters of the profiler",
  "report_count prints one line for each event that was counted, in the order of the names, with the sum of what add_to_count has added to it, and reset_all sets the profiler back, so that the report of a planning is about this planning. Counting does not disturb the measures. Each call of generate_contact increments exactly one counter, that of its status; when equilibrium is required and unreachable contacts are refused, 'reachable contact' is the number of successful calls.",
  "every history of calls of the profiler, every sequence of calls of generate_contact with any environment", "all histories; the profiler is a global object and its counters are only seen in a log file",
  "include/hpp/rbprm/rbprm-profiler.hh:add_to_count", "include/hpp/rbprm/rbprm-profiler.hh:report_count", "src/rbprm-profiler.cc:getRbPrmProfiler", "src/contact_generation/contact_generation.cc:generate_contact", "src/interpolation/rbprm-path-interpolation.cc:Interpolate")
