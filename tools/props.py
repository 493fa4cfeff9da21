#!/usr/bin/env python3
"""Generates /verif/properties.jsonl.  One call of P(...) per property."""
import json, os
OUT = []
def P(title, statement, quantifier, why, *anchors):
    OUT.append(dict(id="C%02d" % (len(OUT)+1), title=title, statement=statement,
                    quantifier=quantifier, why_tests_cant=why, anchors=list(anchors)))

# ---------------------------------------------------------------- State
P("Removing a contact removes exactly that contact",
  "State::RemoveContact(id) returns true iff id was a key of the contact map; when it returns true the contact, its position, normal, rotation and every occurrence in the contact order are gone, the contact counter drops by one, the state is flagged not stable, and every other contact keeps its data and relative order; when it returns false the state is unchanged.",
  "every state and every contact name", "the frame condition ranges over all maps and queues; a test checks a few names",
  "src/rbprm-state.cc:RemoveContact", "include/hpp/rbprm/rbprm-state.hh:RemoveContact")
P("The five contact containers of a State stay consistent",
  "Starting from an empty State, after any history of contact creations on a limb that is not already in contact, RemoveContact and RemoveFirstContact calls, the contact, position, normal and rotation maps have the same keys, the contact order lists each of those keys exactly once, and nbContacts equals their number (so it never underflows).",
  "every finite history of operations", "an invariant over unbounded histories",
  "src/rbprm-state.cc:RemoveContact", "src/rbprm-state.cc:RemoveFirstContact", "src/projection/projection.cc:projectEffector")
P("RemoveFirstContact releases contacts in creation order",
  "On a consistent State, RemoveFirstContact returns \"\" and changes nothing iff there is no contact; otherwise it removes exactly the oldest contact still active and returns its name. Calling it n times releases the n oldest contacts in the order in which they were created.",
  "every consistent state and every number of calls", "FIFO order must hold for all histories",
  "src/rbprm-state.cc:RemoveFirstContact")
P("contactVariations lists exactly the contacts that changed",
  "next.contactVariations(prev) contains, each exactly once, the names in contact in exactly one of the two states or in contact in both at positions more than 1 cm apart, and nothing else; swapping the two states yields the same set; a state has no variation with itself.",
  "every pair of states", "set equality and symmetry over all pairs of states",
  "src/rbprm-state.cc:contactVariations", "src/rbprm-state.cc:contactCreations", "src/rbprm-state.cc:contactBreaks")
P("Creations and breaks classify every variation",
  "Relative to a previous state, a contact is a creation iff it is in contact now and was not, or moved by more than 1 cm; a break iff it was in contact and is not any more, or moved by more than 1 cm. A name is in both lists iff it moved. contactVariations is the union of both lists.",
  "every pair of states and every name", "biconditional over all states",
  "src/rbprm-state.cc:contactCreations", "src/rbprm-state.cc:contactBreaks")
P("Fixed contacts and variations partition the contacts",
  "next.fixedContacts(prev) is exactly the set of contacts active in both states within 1 cm; it is disjoint from contactVariations, together they cover the contacts of next, and the set is symmetric in its two arguments. allVariations(prev, effectors) is effectors minus the fixed contacts, in the given order.",
  "every pair of states and every effector list", "partition law over all pairs",
  "src/rbprm-state.cc:fixedContacts", "src/rbprm-state.cc:allVariations")
P("freeVariations reports the effectors that are free in both states",
  "freeVariations(prev, effectors) returns the listed effectors that are in contact in neither state and never throws.",
  "every pair of states and every effector list", "the throwing input is an effector that was never in contact: rare in tests, common in use",
  "src/rbprm-state.cc:freeVariations", "src/rbprm-state.cc:freeLimbMotions")
P("Copying a State preserves every observable field",
  "After copy construction or assignment the destination equals the source in every public field (configuration, contact maps, order, counter, stable flag, robustness), and self-assignment is harmless.",
  "every pair of states", "field-by-field equality for all states",
  "src/rbprm-state.cc:State(const State&)", "src/rbprm-state.cc:operator=")
P("Printing a State never reads past its contacts",
  "print(stringstream) and print(stringstream, previous) on a consistent State visit each contact once, never dereference a past-the-end iterator and never throw; if the counter exceeds the number of stored normals, print has undefined behaviour.",
  "every state", "memory safety for all container sizes",
  "src/rbprm-state.cc:printInternal", "src/rbprm-state.cc:print")
P("effectorDistance is the largest displacement of a moved contact",
  "effectorDistance(from,to) is an upper bound of the displacement of every contact active in both states that moved by more than 1 cm, is attained or zero, is 0 iff no common contact moved by more than 1 cm, and is symmetric.",
  "every pair of states", "max over unbounded sets",
  "src/rbprm-state.cc:effectorDistance")
# ---------------------------------------------------------------- contact generation
P("Candidate contact removals are exactly the bounded sub-sequences",
  "maintain_contacts_combinatorial(state, maxBroken) on a consistent state with other than one contact returns exactly the states obtained by breaking a set of at most maxBroken contacts, each set once, ordered by number of broken contacts, the unbroken state first; no candidate contains a contact absent from the input and kept contacts keep their relative order.",
  "every consistent state and every bound", "completeness/uniqueness of a combinatorial enumeration",
  "src/contact_generation/contact_generation.cc:maintain_contacts_combinatorial", "src/contact_generation/contact_generation.cc:push_if_new", "src/contact_generation/contact_generation.cc:flatten")
P("Contact creation candidates are all bounded duplicate-free sequences",
  "gen_contacts_combinatorial(freeEffectors, previous, maxCreated, maximise) with distinct effectors enumerates every duplicate-free sequence of at most maxCreated free effectors exactly once and nothing else, each paired with the previous state; the 'create nothing' candidate comes first, or last when maximising contacts.",
  "every list of distinct effectors and every depth", "completeness of an enumeration for all sizes",
  "src/contact_generation/contact_generation.cc:stringCombinatorialRec", "src/contact_generation/contact_generation.cc:gen_contacts_combinatorial")
P("sortLimbs only reorders the free limbs",
  "sortLimbs(state, freeLimbs) with distinct free limbs is a permutation of freeLimbs in which the limbs that do not appear in the contact order come first in their given order, followed by the others in contact-creation order.",
  "every state and every list of distinct limbs", "permutation law for all inputs",
  "src/contact_generation/contact_generation.cc:sortLimbs", "include/hpp/rbprm/tools.hh:insertIfNew")
P("A limb only gets affordance objects of its own filter",
  "getAffObjectsForLimb(limb, affordances, filters) returns the objects of exactly the affordance types listed by the filter registered for that limb, all objects if it has no filter, never an empty list (it throws instead), and never dereferences a missing affordance type.",
  "every limb name, affordance map and filter map", "depends on all pairs of names (substring matches) and missing keys",
  "src/contact_generation/contact_generation.cc:getAffObjectsForLimb")
P("Maintained contacts satisfy projection, collision and reachability checks",
  "When maintain_contacts reports success, without maintain-stability check, the returned state was obtained from one of the candidates by a successful projection to the target root configuration followed by successful collision-free search of free limbs, its configuration was accepted by the full-body collision validation, and (quasi-static with reachability testing) it is reachable from the working state; earlier candidates in the queue were all rejected; the remaining queue is the suffix after it.",
  "every candidate queue and every behaviour of projection/collision/reachability", "quantifies over all oracles and queue lengths",
  "src/contact_generation/contact_generation.cc:maintain_contacts", "src/contact_generation/contact_generation.cc:genColFree")
P("Stability-checked maintenance only returns stable states",
  "maintain_contacts_stability returns a state flagged stable only if its robustness exceeds the threshold, never examines candidates with fewer contacts than the first one, and leaves the state it was given (flagged unstable) if none qualifies; a returned stable state must come from a successful projection.",
  "every candidate queue and oracle", "recursion over unbounded queues with oracles",
  "src/contact_generation/contact_generation.cc:maintain_contacts_stability_rec")
P("generate_contact reports a truthful status",
  "generate_contact never modifies its helper; status REACHABLE implies a candidate was successfully projected and, when stability must be checked, is robust enough and reachable; STABLE implies a robust but unreachable candidate and success false unless unreachable contacts are accepted; UNSTABLE implies success is false whenever stability is required; NO_CONTACT implies failure and the contact maps unchanged. In the first three cases the result is the working state plus exactly the contact of that limb.",
  "every candidate list and every oracle behaviour, with and without postural-task retry", "loop over an unbounded candidate set with early exit and retries",
  "src/contact_generation/contact_generation.cc:generate_contact", "src/contact_generation/contact_generation.cc:findValidCandidate")
P("The contact counter of generated states matches their contacts",
  "The state returned in a contact report by ComputeContacts (with or without previous state) has nbContacts equal to its number of contacts, provided the previous state does.",
  "every previous state and every oracle behaviour", "needs all paths through contact generation",
  "src/contact_generation/contact_generation.cc:findValidCandidate", "src/contact_generation/algorithm.cc:ComputeContacts")
P("gen_contacts leaves the stability option as it found it and creates at most the allowed contacts",
  "gen_contacts restores the helper's checkStabilityGenerate option on every exit; if it succeeds, the result extends the working state by at most maxContactCreations contacts, all on limbs that were free, each at most once.",
  "every helper, candidate queue and oracle", "all exits of a nested loop",
  "src/contact_generation/contact_generation.cc:gen_contacts")
P("Repositioning never loses a contact silently",
  "repositionContacts returns success iff the returned state is stable; it only changes contacts of the limb groups it visits, in contact order, and the returned contact order lists exactly the contacts of the returned state.",
  "every helper state and oracle", "loop over unbounded contact order",
  "src/contact_generation/contact_generation.cc:repositionContacts")
P("Contact reports describe the transition they return",
  "In every report returned by oneStep: contactCreated iff the result has a creation w.r.t. the previous state; multipleBreaks iff more contacts broke than allowed; contactMaintained iff nothing broke and the contacts were not repositioned in place; repositionedInPlace iff no candidate could be extended successfully.",
  "every helper and oracle behaviour", "all paths through a do-while loop",
  "src/contact_generation/algorithm.cc:generateContactReport", "src/contact_generation/algorithm.cc:oneStep", "src/contact_generation/algorithm.cc:handleFailure")
P("Initial contact computation uses at most one limb per group",
  "ComputeContacts (without previous state) attempts limbs in name order, never creates a contact for a limb whose group already holds one, so the result has at most one contact per group; the robot's current configuration is restored; the counter equals the number of contacts; the state is flagged stable only if it is stable.",
  "every set of limbs/groups and oracle", "unbounded number of limbs, all oracle outcomes",
  "src/contact_generation/algorithm.cc:ComputeContacts", "src/contact_generation/algorithm.cc:ContactExistsWithinGroup", "src/contact_generation/algorithm.cc:ComputeStableContact")
# ---------------------------------------------------------------- interpolation
P("Path discretisation covers the whole path",
  "Interpolate(affordances, filters, robustness, timeStep, ...) on a path takes the start state's configuration as first sample, then the path at every first + k*timeStep (k >= 1) strictly inside the range, in increasing order, then the path at the last time, so consecutive samples are at most timeStep apart; a sample takes root, planned joints and extra dofs from the path and every other joint from the start configuration; with a positive time step the sampling ends.",
  "every time range and every positive time step", "holds for all real ranges and steps",
  "src/interpolation/rbprm-path-interpolation.cc:Interpolate")
P("An interpolated contact plan starts at the start state and stays ordered",
  "The plan returned by Interpolate begins with the start state given by the user, its time stamps never decrease, and every later state was returned by contact generation for some configuration of the discretised path (or is the goal state).",
  "every list of configurations and every oracle", "loop with backtracking and failures, any length",
  "src/interpolation/rbprm-path-interpolation.cc:Interpolate")
P("Interpolation terminates",
  "Interpolate performs a bounded number of contact generation calls for every list of configurations, as long as contact generation never reports several broken contacts without having repositioned in place.",
  "every list of configurations and every oracle", "liveness over all oracles",
  "src/interpolation/rbprm-path-interpolation.cc:Interpolate")
P("Only successful contact states enter the plan",
  "Every state after the first in the plan returned by Interpolate comes from a successful contact generation.",
  "every list of configurations and every oracle", "needs all failure interleavings",
  "src/interpolation/rbprm-path-interpolation.cc:Interpolate")
P("Filtering a contact plan keeps its ends and order",
  "FilterStates returns a list with the same first and last states as its input, whose states are input states in the same relative order or single replacement states produced by the documented intermediate generator; shallow filtering returns a sub-sequence of the input; filtering never makes the list longer, and deep filtering terminates.",
  "every list of states and every reachability/repositioning oracle", "recursion over unbounded lists, termination",
  "src/interpolation/rbprm-path-interpolation.cc:FilterStates", "src/interpolation/rbprm-path-interpolation.cc:FilterStatesRec", "src/interpolation/rbprm-path-interpolation.cc:FilterRepositioning", "src/interpolation/rbprm-path-interpolation.cc:FilterBreakCreate", "src/interpolation/rbprm-path-interpolation.cc:trySkipStates")
P("The goal state is appended without rewriting the plan",
  "addGoalConfig only appends states: the plan it returns has the input plan as a prefix; consecutive appended states differ by at most one contact change or end at the goal; and the postural-task option of the robot is restored.",
  "every plan, goal and oracle", "recursive repair of unbounded depth",
  "src/interpolation/rbprm-path-interpolation.cc:addGoalConfig", "src/interpolation/rbprm-path-interpolation.cc:addGoalConfigRec")
# ---------------------------------------------------------------- sampling
P("Octree voxels index a partition of the sample database",
  "After a limb database is built, the samples are a permutation of the generated ones, sample i has id i, every voxel's index range is contiguous, ranges of distinct voxels are disjoint and together cover every sample, and a sample lies in the range of a voxel iff its effector position falls in that voxel.",
  "every list of samples and every voxel assignment", "partition/permutation law for all databases",
  "src/sampling/sample-db.cc:alignSampleOrderWithOctree")
P("Stored analysis values stay attached to their samples",
  "At every point of a database's life (construction, addValue, sorting, reload) value name[i] is the value computed for the sample currently stored at index i.",
  "every history of database operations", "index bookkeeping across permutations",
  "src/sampling/sample-db.cc:addValue", "src/sampling/sample-db.cc:sortDB", "src/sampling/sample-db.cc:alignSampleOrderWithOctree")
P("Analysis values are normalised",
  "addValue(db, name, f, ...) stores for each sample a value in [0,1], 1 for the best and 0 for the worst sample, order preserving; all zeros if the function is constant; an existing name is not overwritten; the recorded bounds are the min and max of the raw values.",
  "every database and every analysis function", "order-preservation over all real-valued functions",
  "src/sampling/sample-db.cc:addValue")
P("Static sorting orders the samples by static value",
  "sortDB yields a permutation of the samples in non-increasing static value, and every sample's id equals its new index.",
  "every database", "sorting spec for all lists",
  "src/sampling/sample-db.cc:sortDB")
P("Candidate reports enumerate the samples of the touched voxels",
  "GetCandidates returns, ordered by decreasing heuristic value, exactly one report per (contact, sample of the touched voxel), drops none and never indexes outside the database; merging the reports of several obstacles keeps all of them in order.",
  "every database, contact list and heuristic", "multiset equality and ordering for all sizes",
  "src/sampling/sample-db.cc:GetCandidates", "src/contact_generation/contact_generation.cc:CollideOctree")
P("Saving and loading a limb database is the identity",
  "Loading the file produced by saving a limb database yields the same samples in the same order with the same voxels and the same values.",
  "every database", "round-trip over all contents, including values names and formatting",
  "src/sampling/sample-db.cc:saveLimbDatabase", "src/sampling/sample-db.cc:readSampleVec", "src/rbprm-limb.cc:operator<<")
P("Splitting a line gives back its fields",
  "splitString applied to fields joined by a separator returns exactly these fields, for non-empty fields that do not contain the separator; readers of vectors and matrices invert their writers.",
  "every list of fields", "round-trip for all field lists and lengths, including trailing separators",
  "src/tools.cc:splitString", "src/tools.cc:readMatrix", "src/tools.cc:writeMatrix")
# ---------------------------------------------------------------- fullbody
P("Limb registry lookups agree with registrations",
  "After any history of AddLimb, AddNonContactingLimb and toggleNonContactingLimb with distinct limb ids, GetLimb(id) finds exactly the registered limbs, each limb is in exactly one of the two registries, toggling twice is the identity, and toggling an unknown id reports failure and changes nothing; adding an already used id throws and changes nothing.",
  "every history of operations", "invariant over histories; the failing case needs the same id in both registries",
  "src/rbprm-fullbody.cc:AddLimb", "src/rbprm-fullbody.cc:AddNonContactingLimb", "src/rbprm-fullbody.cc:toggleNonContactingLimb", "src/rbprm-fullbody.cc:GetLimb")
P("Effector trajectories are stored per path and effector",
  "After addEffectorTrajectory(pathId, effector, t) the pair (pathId, effector) reads back t among its trajectories in insertion order and no other pair changes; reading a pair that was never written reports failure; the bulk version does not overwrite and says so.",
  "every history of operations", "map-of-map semantics over histories",
  "src/rbprm-fullbody.cc:addEffectorTrajectory", "src/rbprm-fullbody.cc:getEffectorTrajectory")
# ---------------------------------------------------------------- validation
P("ROM validation requires every filtered limb to be in contact",
  "For a filter without repeated names, validateRoms(config, filter, report) is true iff every limb named in the filter exists and is within reach of a contact surface or was declared optional (an empty filter accepts everything); validity is monotone: enlarging the set of ROMs in collision, or shrinking the filter, never turns a valid configuration invalid. Computing all contacts does not change the answer.",
  "every filter, configuration and collision outcome", "monotonicity and counting over all subsets",
  "src/rbprm-validation.cc:validateRoms")
P("A configuration is valid iff trunk, bounds and ROMs are valid",
  "RbPrmValidation::validate(config, report[, filter]) returns true iff the trunk is collision free, the joint bounds hold and the ROM filter is satisfied, and the report it fills says which of these failed and lists exactly the ROMs in collision.",
  "every configuration and oracle", "all combinations and early exits",
  "src/rbprm-validation.cc:validate")
P("ROM validation accepts iff in collision or optional and survives pair shuffling",
  "A ROM validation accepts a configuration iff some collision pair collides or the ROM is optional; randomnizeCollisionPairs keeps each pair with its own request, loses and duplicates none; the accept decision does not depend on the pair order; and the reported pair is a colliding one.",
  "every list of pairs and every permutation", "all permutations",
  "src/rbprm-rom-validation.cc:validate", "src/rbprm-rom-validation.cc:randomnizeCollisionPairs")
P("Discretised path validation checks both ends and every step",
  "RbPrmPathValidation::validate(path, reverse, validPart, report[, filter]) with positive step terminates; it returns true only if the configuration was accepted at both ends and at times at most one step apart covering the range, and then validPart is the whole path; it returns false only if some checked time was rejected, and then validPart is the extract between the starting end and the last accepted time (all checked times in it, if any, accepted), and the report holds the rejected time.",
  "every path, step size, direction and validation oracle", "loop over real times; coverage property",
  "src/rbprm-path-validation.cc:validate", "src/dynamic/dynamic-path-validation.cc:validate")
# ---------------------------------------------------------------- shooter
P("Shot root positions stay inside the translation bounds",
  "Whatever surface triangle, normal and offset are drawn, the root translation produced by the shooter lies in the configured bounds, and the other degrees of freedom are untouched by clamping.",
  "every triangle, random draw and bounds", "all reals",
  "src/rbprm-shooter.cc:Translate", "src/rbprm-shooter.cc:SetConfigTranslation")
P("Surface triangles are drawn according to their area",
  "After initialisation the cumulative weights are non-decreasing, end at 1 and increments are proportional to the areas; the triangle selected for a draw r in (0,1] exists and is the one whose cumulative interval contains r; the uniform draw is in range.",
  "every non-empty triangle list with positive total area and every r", "all lists and draws",
  "src/rbprm-shooter.cc:InitWeightedTriangles", "src/rbprm-shooter.cc:WeightedTriangle")
P("The random point lies in its triangle",
  "The point sampled in a triangle is a convex combination of its vertices for all random draws in [0,1].",
  "every triangle and all draws", "all reals",
  "src/rbprm-shooter.cc:RandomPointIntriangle")
P("The configuration shooter always terminates and only returns validated configurations",
  "impl_shoot makes at most shootLimit * (2 * displacementLimit + 1) validation attempts and the configuration it returns was accepted by the validator.",
  "every validator behaviour and random stream", "all oracle behaviours",
  "src/rbprm-shooter.cc:impl_shoot")
# ---------------------------------------------------------------- geometry, stability
P("Support polygon membership equals half-plane membership",
  "InPolygon on a convex polygon, in either orientation, is true for every strictly interior point and false for every point strictly outside; the hull returned by ConvexHull is made of input points and starts at the left-most one.",
  "every convex polygon and every point", "all reals, all sizes",
  "src/stability/support.cc:InPolygon", "src/stability/support.cc:ConvexHull", "src/stability/support.cc:LeftMost")
P("closestPointInTriangle returns the closest point of the triangle",
  "For every non-degenerate triangle and every source point the returned point is in the triangle, and no point of the triangle is closer to the source.",
  "every triangle and point", "the wrong region of the case split is a measure-small set of inputs",
  "src/projection/projection.cc:closestPointInTriangle", "src/projection/projection.cc:clamp")
P("Equilibrium verdicts are read correctly from the LP status",
  "IsStable returns the solver's robustness when the LP is optimal, a negative value whenever the LP is infeasible, unbounded or fails, and states with no contact are never reported stable; contact points of non-grasping effectors come before those of grasping ones and each contact contributes its number of support points.",
  "every state and solver status", "all statuses and contact sets",
  "src/stability/stability.cc:IsStable", "src/stability/stability.cc:setupLibrary")
P("Projection of a point on a plane lies on the plane and is the closest",
  "projectPointOnPlane(p, n, o) with unit n lies on the plane through o with normal n, is the closest point of the plane to p, and the returned distance is the signed/absolute distance.",
  "every point and plane", "all reals",
  "src/utils/algorithms.cc:projectPointOnPlane")
P("Convex clipping stays inside both polygons",
  "compute2DIntersection and compute3DIntersection return points that are inside the clipping polygon and in the convex hull of the subject polygon, also when the polygons do not meet; for a convex subject polygon the result covers exactly the points that are in both polygons.",
  "every subject polygon and convex clipping polygon", "all sizes",
  "src/utils/algorithms.cc:compute2DIntersection")
# ---------------------------------------------------------------- kinematics / reachability
P("Kinematic constraints follow the contact frame",
  "getInequalitiesAtTransform is equivariant: a point x satisfies the constraints placed at transform M iff M^-1 x satisfies the limb's own constraints; constraints of a state are the conjunction over its contacts, so adding a contact never enlarges the feasible set and the order of contacts is irrelevant.",
  "every point, transform and set of contacts", "all reals, all contact sets",
  "src/contact_generation/kinematics_constraints.cc:getInequalitiesAtTransform", "src/contact_generation/kinematics_constraints.cc:computeKinematicsConstraintsForState", "src/contact_generation/kinematics_constraints.cc:verifyKinematicConstraints")
P("Reachability verdicts follow from the number of contact changes",
  "isReachable between two states answers 'no contact variation' iff neither creation nor break exists, 'too many' iff at least two limbs change their contact, and otherwise success iff some position of the centre of mass satisfies the stability and kinematic constraints of both states, given that the smaller contact set has the stronger stability constraints; success() accepts exactly the statuses documented as reachable; stacking constraints is conjunction.",
  "every pair of states and LP oracle", "all pairs",
  "src/contact_generation/reachability.cc:isReachable", "src/contact_generation/reachability.cc:stackConstraints", "include/hpp/rbprm/contact_generation/reachability.hh:Result")
P("Dynamic reachability tries every timing before giving up",
  "isReachableDynamic without imposed timings tries the candidate timings in table order, stops at the first feasible one, and only answers unreachable after every row of the table has been tried.",
  "every solver behaviour", "off-by-one at the end of the table only shows when all earlier rows fail",
  "src/contact_generation/reachability.cc:isReachableDynamic")
# ---------------------------------------------------------------- planner
P("Random shortcut keeps the ends and never lengthens the path",
  "RandomShortcutDynamic::optimize returns a path with the same initial and final configuration as its input and not longer; it terminates on every path and never dereferences a null result.",
  "every path, random stream, steering and validation oracle", "liveness over all random streams",
  "src/planner/random-shortcut-dynamic.cc:optimize")
P("Kinodynamic extension is cut before the first inadmissible acceleration",
  "The path returned by the kinodynamic steering method starts (forward) at the node, is a prefix of the computed path, is not longer than the maximum length, and contains no checked switching time at which the acceleration was found inadmissible; dually backwards.",
  "every path, switching times and admissibility oracle", "all reals and oracle outcomes",
  "src/planner/rbprm-steering-kinodynamic.cc:impl_compute")
P("Every roadmap edge joins the configurations of its end nodes",
  "Every edge inserted by the dynamic planner carries a validated path whose initial configuration is its source node's and whose final configuration is its target node's.",
  "every history of planning steps and every oracle", "invariant over all histories; needs steering truncation",
  "src/planner/dynamic-planner.cc:oneStep", "src/planner/dynamic-planner.cc:tryConnectInitAndGoals")
P("Dynamic validation only accepts admissible accelerations",
  "After setInitialReport, DynamicValidation::validate(config, report) returns true only if the set of contact surfaces is the initial one, or the acceleration of config is admissible for the contacts in the report.",
  "every history of validate calls", "cache coherence over histories",
  "src/dynamic/dynamic-validation.cc:validate")
P("Extracting a time-constraint path commutes with evaluation",
  "For a TimeConstraintPath p of positive length and t0<t1 in its range, p.extract(t0,t1) evaluated at s has the extra degree of freedom of p at t0+s; ends match; the extra dof is monotone along a path whose end value is not smaller; a degenerate path evaluates to its initial configuration.",
  "every path, interval and time", "all reals",
  "src/interpolation/time-constraint-path.cc:extract", "src/interpolation/time-constraint-path.cc:impl_compute")
P("COM and polynomial trajectories extract consistently",
  "ComTrajectory.extract(t0,t1)(s) equals the trajectory at t0+s whenever the end point is consistent with the acceleration law; PolynomTrajectory.extract keeps the curve's values and time stamps.",
  "every trajectory and interval", "all reals",
  "src/interpolation/com-trajectory.cc:extract", "src/interpolation/polynom-trajectory.cc:extract")
P("A path accepted by time-constraint validation never goes back in time nor jumps",
  "TimeConstraintPathValidation::validate accepts a path only if its extra dof does not decrease and no tenth of the path moves the joints by more than a fifth of the total displacement.",
  "every path", "all reals; last tenth",
  "src/interpolation/time-constraint-path-validation.cc:validate")
P("Parallel interpolation is schedule independent and ordered",
  "interpolateStates returns the concatenation, in state order, of one path per consecutive pair of states, whatever order the parallel loop runs in; it never returns before all pairs succeeded; fewer than 100 transitions are required and at least one.",
  "every schedule of the parallel loop and every planner outcome", "schedules",
  "include/hpp/rbprm/interpolation/time-constraint-helper.inl:interpolateStatesFromPathGetter", "include/hpp/rbprm/interpolation/time-constraint-helper.inl:ConcatenateAndResizePath", "include/hpp/rbprm/interpolation/time-constraint-helper.inl:checkPath")
P("A parabola path follows its parabola",
  "ParabolaPath evaluated at a parameter strictly inside its range has its root on the vertical parabola given by the coefficients; at 0 it is the initial and at its length the final configuration.",
  "every parabola and parameter", "all reals",
  "src/planner/parabola-path.cc:impl_compute")
P("Stopwatch statistics are consistent",
  "For every history of start/stop with non-negative lapses, min <= average <= max over the recorded lapses, total is their sum and the count their number; reset restores the initial record and unknown names throw without side effects.",
  "every history", "histories, including zero lapses",
  "src/utils/stop-watch.cc:stop", "src/utils/stop-watch.cc:reset")
P("Isotropy lies in the unit interval",
  "The isotropy analysis returns a number in [0,1] for all singular values.",
  "every list of singular values", "all reals; precedence slip",
  "src/sampling/analysis.cc:isotropy")
P("Contact matrices have one block per contact point",
  "fillNodeMatrices writes, for each ROM in contact, 1 (point) or 4 (rectangular) contact blocks at consecutive indices, never outside the allocated matrices, and the four rectangular points have the contact point as their mean.",
  "every number of ROMs and both contact models", "index arithmetic for all sizes",
  "src/planner/rbprm-node.cc:fillNodeMatrices", "src/planner/rbprm-node.cc:computeNodeMatrixForOnePoint")

exec(open(os.path.join(os.path.dirname(__file__), "props_more.py")).read()) if os.path.exists(os.path.join(os.path.dirname(__file__), "props_more.py")) else None
with open(os.path.join(os.path.dirname(__file__), "..", "properties.jsonl"), "w") as f:
    for o in OUT: f.write(json.dumps(o) + "\n")
print(len(OUT))
