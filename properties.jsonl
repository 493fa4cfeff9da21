{"id": "C01", "title": "Removing a contact removes exactly that contact", "statement": "State::RemoveContact(id) returns true iff id was a key of the contact map; when it returns true the contact, its position, normal, rotation and every occurrence in the contact order are gone, the contact counter drops by one, the state is flagged not stable, and every other contact keeps its data and relative order; when it returns false the state is unchanged.", "quantifier": "every state and every contact name", "why_tests_cant": "the frame condition ranges over all maps and queues; a test checks a few names", "anchors": ["src/rbprm-state.cc:RemoveContact", "include/hpp/rbprm/rbprm-state.hh:RemoveContact"]}
{"id": "C02", "title": "The five contact containers of a State stay consistent", "statement": "Starting from an empty State, after any history of contact creations on a limb that is not already in contact, RemoveContact and RemoveFirstContact calls, the contact, position, normal and rotation maps have the same keys, the contact order lists each of those keys exactly once, and nbContacts equals their number (so it never underflows).", "quantifier": "every finite history of operations", "why_tests_cant": "an invariant over unbounded histories", "anchors": ["src/rbprm-state.cc:RemoveContact", "src/rbprm-state.cc:RemoveFirstContact", "src/projection/projection.cc:projectEffector"]}
{"id": "C03", "title": "RemoveFirstContact releases contacts in creation order", "statement": "On a consistent State, RemoveFirstContact returns \"\" and changes nothing iff there is no contact; otherwise it removes exactly the oldest contact still active and returns its name. Calling it n times releases the n oldest contacts in the order in which they were created.", "quantifier": "every consistent state and every number of calls", "why_tests_cant": "FIFO order must hold for all histories", "anchors": ["src/rbprm-state.cc:RemoveFirstContact"]}
{"id": "C04", "title": "contactVariations lists exactly the contacts that changed", "statement": "next.contactVariations(prev) contains, each exactly once, the names in contact in exactly one of the two states or in contact in both at positions more than 1 cm apart, and nothing else; swapping the two states yields the same set; a state has no variation with itself.", "quantifier": "every pair of states", "why_tests_cant": "set equality and symmetry over all pairs of states", "anchors": ["src/rbprm-state.cc:contactVariations", "src/rbprm-state.cc:contactCreations", "src/rbprm-state.cc:contactBreaks"]}
{"id": "C05", "title": "Creations and breaks classify every variation", "statement": "Relative to a previous state, a contact is a creation iff it is in contact now and was not, or moved by more than 1 cm; a break iff it was in contact and is not any more, or moved by more than 1 cm. A name is in both lists iff it moved. contactVariations is the union of both lists.", "quantifier": "every pair of states and every name", "why_tests_cant": "biconditional over all states", "anchors": ["src/rbprm-state.cc:contactCreations", "src/rbprm-state.cc:contactBreaks"]}
{"id": "C06", "title": "Fixed contacts and variations partition the contacts", "statement": "next.fixedContacts(prev) is exactly the set of contacts active in both states within 1 cm; it is disjoint from contactVariations, together they cover the contacts of next, and the set is symmetric in its two arguments. allVariations(prev, effectors) is effectors minus the fixed contacts, in the given order.", "quantifier": "every pair of states and every effector list", "why_tests_cant": "partition law over all pairs", "anchors": ["src/rbprm-state.cc:fixedContacts", "src/rbprm-state.cc:allVariations"]}
{"id": "C07", "title": "freeVariations reports the effectors that are free in both states", "statement": "freeVariations(prev, effectors) returns the listed effectors that are in contact in neither state and never throws.", "quantifier": "every pair of states and every effector list", "why_tests_cant": "the throwing input is an effector that was never in contact: rare in tests, common in use", "anchors": ["src/rbprm-state.cc:freeVariations", "src/rbprm-state.cc:freeLimbMotions"]}
{"id": "C08", "title": "Copying a State preserves every observable field", "statement": "After copy construction or assignment the destination equals the source in every public field (configuration, contact maps, order, counter, stable flag, robustness), and self-assignment is harmless.", "quantifier": "every pair of states", "why_tests_cant": "field-by-field equality for all states", "anchors": ["src/rbprm-state.cc:State(const State&)", "src/rbprm-state.cc:operator="]}
{"id": "C09", "title": "Printing a State never reads past its contacts", "statement": "print(stringstream) and print(stringstream, previous) on a consistent State visit each contact once, never dereference a past-the-end iterator and never throw; if the counter exceeds the number of stored normals, print has undefined behaviour.", "quantifier": "every state", "why_tests_cant": "memory safety for all container sizes", "anchors": ["src/rbprm-state.cc:printInternal", "src/rbprm-state.cc:print"]}
{"id": "C10", "title": "effectorDistance is the largest displacement of a moved contact", "statement": "effectorDistance(from,to) is an upper bound of the displacement of every contact active in both states that moved by more than 1 cm, is attained or zero, is 0 iff no common contact moved by more than 1 cm, and is symmetric.", "quantifier": "every pair of states", "why_tests_cant": "max over unbounded sets", "anchors": ["src/rbprm-state.cc:effectorDistance"]}
{"id": "C11", "title": "Candidate contact removals are exactly the bounded sub-sequences", "statement": "maintain_contacts_combinatorial(state, maxBroken) on a consistent state with other than one contact returns exactly the states obtained by breaking a set of at most maxBroken contacts, each set once, ordered by number of broken contacts, the unbroken state first; no candidate contains a contact absent from the input and kept contacts keep their relative order.", "quantifier": "every consistent state and every bound", "why_tests_cant": "completeness/uniqueness of a combinatorial enumeration", "anchors": ["src/contact_generation/contact_generation.cc:maintain_contacts_combinatorial", "src/contact_generation/contact_generation.cc:push_if_new", "src/contact_generation/contact_generation.cc:flatten"]}
{"id": "C12", "title": "Contact creation candidates are all bounded duplicate-free sequences", "statement": "gen_contacts_combinatorial(freeEffectors, previous, maxCreated, maximise) with distinct effectors enumerates every duplicate-free sequence of at most maxCreated free effectors exactly once and nothing else, each paired with the previous state; the 'create nothing' candidate comes first, or last when maximising contacts.", "quantifier": "every list of distinct effectors and every depth", "why_tests_cant": "completeness of an enumeration for all sizes", "anchors": ["src/contact_generation/contact_generation.cc:stringCombinatorialRec", "src/contact_generation/contact_generation.cc:gen_contacts_combinatorial"]}
{"id": "C13", "title": "sortLimbs only reorders the free limbs", "statement": "sortLimbs(state, freeLimbs) with distinct free limbs is a permutation of freeLimbs in which the limbs that do not appear in the contact order come first in their given order, followed by the others in contact-creation order.", "quantifier": "every state and every list of distinct limbs", "why_tests_cant": "permutation law for all inputs", "anchors": ["src/contact_generation/contact_generation.cc:sortLimbs", "include/hpp/rbprm/tools.hh:insertIfNew"]}
{"id": "C14", "title": "A limb only gets affordance objects of its own filter", "statement": "getAffObjectsForLimb(limb, affordances, filters) returns the objects of exactly the affordance types listed by the filter registered for that limb, all objects if it has no filter, never an empty list (it throws instead), and never dereferences a missing affordance type.", "quantifier": "every limb name, affordance map and filter map", "why_tests_cant": "depends on all pairs of names (substring matches) and missing keys", "anchors": ["src/contact_generation/contact_generation.cc:getAffObjectsForLimb"]}
{"id": "C15", "title": "Maintained contacts satisfy projection, collision and reachability checks", "statement": "When maintain_contacts reports success, without maintain-stability check, the returned state was obtained from one of the candidates by a successful projection to the target root configuration followed by successful collision-free search of free limbs, its configuration was accepted by the full-body collision validation, and (quasi-static with reachability testing) it is reachable from the working state; earlier candidates in the queue were all rejected; the remaining queue is the suffix after it.", "quantifier": "every candidate queue and every behaviour of projection/collision/reachability", "why_tests_cant": "quantifies over all oracles and queue lengths", "anchors": ["src/contact_generation/contact_generation.cc:maintain_contacts", "src/contact_generation/contact_generation.cc:genColFree"]}
{"id": "C16", "title": "Stability-checked maintenance only returns stable states", "statement": "maintain_contacts_stability returns a state flagged stable only if its robustness exceeds the threshold, never examines candidates with fewer contacts than the first one, and leaves the state it was given (flagged unstable) if none qualifies; a returned stable state must come from a successful projection.", "quantifier": "every candidate queue and oracle", "why_tests_cant": "recursion over unbounded queues with oracles", "anchors": ["src/contact_generation/contact_generation.cc:maintain_contacts_stability_rec"]}
{"id": "C17", "title": "generate_contact reports a truthful status", "statement": "generate_contact never modifies its helper; status REACHABLE implies a candidate was successfully projected and, when stability must be checked, is robust enough and reachable; STABLE implies a robust but unreachable candidate and success false unless unreachable contacts are accepted; UNSTABLE implies success is false whenever stability is required; NO_CONTACT implies failure and the contact maps unchanged. In the first three cases the result is the working state plus exactly the contact of that limb.", "quantifier": "every candidate list and every oracle behaviour, with and without postural-task retry", "why_tests_cant": "loop over an unbounded candidate set with early exit and retries", "anchors": ["src/contact_generation/contact_generation.cc:generate_contact", "src/contact_generation/contact_generation.cc:findValidCandidate"]}
{"id": "C18", "title": "The contact counter of generated states matches their contacts", "statement": "The state returned in a contact report by ComputeContacts (with or without previous state) has nbContacts equal to its number of contacts, provided the previous state does.", "quantifier": "every previous state and every oracle behaviour", "why_tests_cant": "needs all paths through contact generation", "anchors": ["src/contact_generation/contact_generation.cc:findValidCandidate", "src/contact_generation/algorithm.cc:ComputeContacts"]}
{"id": "C19", "title": "gen_contacts leaves the stability option as it found it and creates at most the allowed contacts", "statement": "gen_contacts restores the helper's checkStabilityGenerate option on every exit; if it succeeds, the result extends the working state by at most maxContactCreations contacts, all on limbs that were free, each at most once.", "quantifier": "every helper, candidate queue and oracle", "why_tests_cant": "all exits of a nested loop", "anchors": ["src/contact_generation/contact_generation.cc:gen_contacts"]}
{"id": "C20", "title": "Repositioning never loses a contact silently", "statement": "repositionContacts returns success iff the returned state is stable; it only changes contacts of the limb groups it visits, in contact order, and the returned contact order lists exactly the contacts of the returned state.", "quantifier": "every helper state and oracle", "why_tests_cant": "loop over unbounded contact order", "anchors": ["src/contact_generation/contact_generation.cc:repositionContacts"]}
{"id": "C21", "title": "Contact reports describe the transition they return", "statement": "In every report returned by oneStep: contactCreated iff the result has a creation w.r.t. the previous state; multipleBreaks iff more contacts broke than allowed; contactMaintained iff nothing broke and the contacts were not repositioned in place; repositionedInPlace iff no candidate could be extended successfully.", "quantifier": "every helper and oracle behaviour", "why_tests_cant": "all paths through a do-while loop", "anchors": ["src/contact_generation/algorithm.cc:generateContactReport", "src/contact_generation/algorithm.cc:oneStep", "src/contact_generation/algorithm.cc:handleFailure"]}
{"id": "C22", "title": "Initial contact computation uses at most one limb per group", "statement": "ComputeContacts (without previous state) attempts limbs in name order, never creates a contact for a limb whose group already holds one, so the result has at most one contact per group; the robot's current configuration is restored; the counter equals the number of contacts; the state is flagged stable only if it is stable.", "quantifier": "every set of limbs/groups and oracle", "why_tests_cant": "unbounded number of limbs, all oracle outcomes", "anchors": ["src/contact_generation/algorithm.cc:ComputeContacts", "src/contact_generation/algorithm.cc:ContactExistsWithinGroup", "src/contact_generation/algorithm.cc:ComputeStableContact"]}
{"id": "C23", "title": "Path discretisation covers the whole path", "statement": "Interpolate(affordances, filters, robustness, timeStep, ...) on a path takes the start state's configuration as first sample, then the path at every first + k*timeStep (k >= 1) strictly inside the range, in increasing order, then the path at the last time, so consecutive samples are at most timeStep apart; a sample takes root, planned joints and extra dofs from the path and every other joint from the start configuration; with a positive time step the sampling ends.", "quantifier": "every time range and every positive time step", "why_tests_cant": "holds for all real ranges and steps", "anchors": ["src/interpolation/rbprm-path-interpolation.cc:Interpolate"]}
{"id": "C24", "title": "An interpolated contact plan starts at the start state and stays ordered", "statement": "The plan returned by Interpolate begins with the start state given by the user, its time stamps never decrease, and every later state was returned by contact generation for some configuration of the discretised path (or is the goal state).", "quantifier": "every list of configurations and every oracle", "why_tests_cant": "loop with backtracking and failures, any length", "anchors": ["src/interpolation/rbprm-path-interpolation.cc:Interpolate"]}
{"id": "C25", "title": "Interpolation terminates", "statement": "Interpolate performs a bounded number of contact generation calls for every list of configurations, as long as contact generation never reports several broken contacts without having repositioned in place.", "quantifier": "every list of configurations and every oracle", "why_tests_cant": "liveness over all oracles", "anchors": ["src/interpolation/rbprm-path-interpolation.cc:Interpolate"]}
{"id": "C26", "title": "Only successful contact states enter the plan", "statement": "Every state after the first in the plan returned by Interpolate comes from a successful contact generation.", "quantifier": "every list of configurations and every oracle", "why_tests_cant": "needs all failure interleavings", "anchors": ["src/interpolation/rbprm-path-interpolation.cc:Interpolate"]}
{"id": "C27", "title": "Filtering a contact plan keeps its ends and order", "statement": "FilterStates returns a list with the same first and last states as its input, whose states are input states in the same relative order or single replacement states produced by the documented intermediate generator; shallow filtering returns a sub-sequence of the input; filtering never makes the list longer, and deep filtering terminates.", "quantifier": "every list of states and every reachability/repositioning oracle", "why_tests_cant": "recursion over unbounded lists, termination", "anchors": ["src/interpolation/rbprm-path-interpolation.cc:FilterStates", "src/interpolation/rbprm-path-interpolation.cc:FilterStatesRec", "src/interpolation/rbprm-path-interpolation.cc:FilterRepositioning", "src/interpolation/rbprm-path-interpolation.cc:FilterBreakCreate", "src/interpolation/rbprm-path-interpolation.cc:trySkipStates"]}
{"id": "C28", "title": "The goal state is appended without rewriting the plan", "statement": "addGoalConfig only appends states: the plan it returns has the input plan as a prefix; consecutive appended states differ by at most one contact change or end at the goal; and the postural-task option of the robot is restored.", "quantifier": "every plan, goal and oracle", "why_tests_cant": "recursive repair of unbounded depth", "anchors": ["src/interpolation/rbprm-path-interpolation.cc:addGoalConfig", "src/interpolation/rbprm-path-interpolation.cc:addGoalConfigRec"]}
{"id": "C29", "title": "Octree voxels index a partition of the sample database", "statement": "After a limb database is built, the samples are a permutation of the generated ones, sample i has id i, every voxel's index range is contiguous, ranges of distinct voxels are disjoint and together cover every sample, and a sample lies in the range of a voxel iff its effector position falls in that voxel.", "quantifier": "every list of samples and every voxel assignment", "why_tests_cant": "partition/permutation law for all databases", "anchors": ["src/sampling/sample-db.cc:alignSampleOrderWithOctree"]}
{"id": "C30", "title": "Stored analysis values stay attached to their samples", "statement": "At every point of a database's life (construction, addValue, sorting, reload) value name[i] is the value computed for the sample currently stored at index i.", "quantifier": "every history of database operations", "why_tests_cant": "index bookkeeping across permutations", "anchors": ["src/sampling/sample-db.cc:addValue", "src/sampling/sample-db.cc:sortDB", "src/sampling/sample-db.cc:alignSampleOrderWithOctree"]}
{"id": "C31", "title": "Analysis values are normalised", "statement": "addValue(db, name, f, ...) stores for each sample a value in [0,1], 1 for the best and 0 for the worst sample, order preserving; all zeros if the function is constant; an existing name is not overwritten; the recorded bounds are the min and max of the raw values.", "quantifier": "every database and every analysis function", "why_tests_cant": "order-preservation over all real-valued functions", "anchors": ["src/sampling/sample-db.cc:addValue"]}
{"id": "C32", "title": "Static sorting orders the samples by static value", "statement": "sortDB yields a permutation of the samples in non-increasing static value, and every sample's id equals its new index.", "quantifier": "every database", "why_tests_cant": "sorting spec for all lists", "anchors": ["src/sampling/sample-db.cc:sortDB"]}
{"id": "C33", "title": "Candidate reports enumerate the samples of the touched voxels", "statement": "GetCandidates returns, ordered by decreasing heuristic value, exactly one report per (contact, sample of the touched voxel), drops none and never indexes outside the database; merging the reports of several obstacles keeps all of them in order.", "quantifier": "every database, contact list and heuristic", "why_tests_cant": "multiset equality and ordering for all sizes", "anchors": ["src/sampling/sample-db.cc:GetCandidates", "src/contact_generation/contact_generation.cc:CollideOctree"]}
{"id": "C34", "title": "Saving and loading a limb database is the identity", "statement": "Loading the file produced by saving a limb database yields the same samples in the same order with the same voxels and the same values.", "quantifier": "every database", "why_tests_cant": "round-trip over all contents, including values names and formatting", "anchors": ["src/sampling/sample-db.cc:saveLimbDatabase", "src/sampling/sample-db.cc:readSampleVec", "src/rbprm-limb.cc:operator<<"]}
{"id": "C35", "title": "Splitting a line gives back its fields", "statement": "splitString applied to fields joined by a separator returns exactly these fields, for non-empty fields that do not contain the separator; readers of vectors and matrices invert their writers.", "quantifier": "every list of fields", "why_tests_cant": "round-trip for all field lists and lengths, including trailing separators", "anchors": ["src/tools.cc:splitString", "src/tools.cc:readMatrix", "src/tools.cc:writeMatrix"]}
{"id": "C36", "title": "Limb registry lookups agree with registrations", "statement": "After any history of AddLimb, AddNonContactingLimb and toggleNonContactingLimb with distinct limb ids, GetLimb(id) finds exactly the registered limbs, each limb is in exactly one of the two registries, toggling twice is the identity, and toggling an unknown id reports failure and changes nothing; adding an already used id throws and changes nothing.", "quantifier": "every history of operations", "why_tests_cant": "invariant over histories; the failing case needs the same id in both registries", "anchors": ["src/rbprm-fullbody.cc:AddLimb", "src/rbprm-fullbody.cc:AddNonContactingLimb", "src/rbprm-fullbody.cc:toggleNonContactingLimb", "src/rbprm-fullbody.cc:GetLimb"]}
{"id": "C37", "title": "Effector trajectories are stored per path and effector", "statement": "After addEffectorTrajectory(pathId, effector, t) the pair (pathId, effector) reads back t among its trajectories in insertion order and no other pair changes; reading a pair that was never written reports failure; the bulk version does not overwrite and says so.", "quantifier": "every history of operations", "why_tests_cant": "map-of-map semantics over histories", "anchors": ["src/rbprm-fullbody.cc:addEffectorTrajectory", "src/rbprm-fullbody.cc:getEffectorTrajectory"]}
{"id": "C38", "title": "ROM validation requires every filtered limb to be in contact", "statement": "For a filter without repeated names, validateRoms(config, filter, report) is true iff every limb named in the filter exists and is within reach of a contact surface or was declared optional (an empty filter accepts everything); validity is monotone: enlarging the set of ROMs in collision, or shrinking the filter, never turns a valid configuration invalid. Computing all contacts does not change the answer.", "quantifier": "every filter, configuration and collision outcome", "why_tests_cant": "monotonicity and counting over all subsets", "anchors": ["src/rbprm-validation.cc:validateRoms"]}
{"id": "C39", "title": "A configuration is valid iff trunk, bounds and ROMs are valid", "statement": "RbPrmValidation::validate(config, report[, filter]) returns true iff the trunk is collision free, the joint bounds hold and the ROM filter is satisfied, and the report it fills says which of these failed and lists exactly the ROMs in collision.", "quantifier": "every configuration and oracle", "why_tests_cant": "all combinations and early exits", "anchors": ["src/rbprm-validation.cc:validate"]}
{"id": "C40", "title": "ROM validation accepts iff in collision or optional and survives pair shuffling", "statement": "A ROM validation accepts a configuration iff some collision pair collides or the ROM is optional; randomnizeCollisionPairs keeps each pair with its own request, loses and duplicates none; the accept decision does not depend on the pair order; and the reported pair is a colliding one.", "quantifier": "every list of pairs and every permutation", "why_tests_cant": "all permutations", "anchors": ["src/rbprm-rom-validation.cc:validate", "src/rbprm-rom-validation.cc:randomnizeCollisionPairs"]}
{"id": "C41", "title": "Discretised path validation checks both ends and every step", "statement": "RbPrmPathValidation::validate(path, reverse, validPart, report[, filter]) with positive step terminates; it returns true only if the configuration was accepted at both ends and at times at most one step apart covering the range, and then validPart is the whole path; it returns false only if some checked time was rejected, and then validPart is the extract between the starting end and the last accepted time (all checked times in it, if any, accepted), and the report holds the rejected time.", "quantifier": "every path, step size, direction and validation oracle", "why_tests_cant": "loop over real times; coverage property", "anchors": ["src/rbprm-path-validation.cc:validate", "src/dynamic/dynamic-path-validation.cc:validate"]}
{"id": "C42", "title": "Shot root positions stay inside the translation bounds", "statement": "Whatever surface triangle, normal and offset are drawn, the root translation produced by the shooter lies in the configured bounds, and the other degrees of freedom are untouched by clamping.", "quantifier": "every triangle, random draw and bounds", "why_tests_cant": "all reals", "anchors": ["src/rbprm-shooter.cc:Translate", "src/rbprm-shooter.cc:SetConfigTranslation"]}
{"id": "C43", "title": "Surface triangles are drawn according to their area", "statement": "After initialisation the cumulative weights are non-decreasing, end at 1 and increments are proportional to the areas; the triangle selected for a draw r in (0,1] exists and is the one whose cumulative interval contains r; the uniform draw is in range.", "quantifier": "every non-empty triangle list with positive total area and every r", "why_tests_cant": "all lists and draws", "anchors": ["src/rbprm-shooter.cc:InitWeightedTriangles", "src/rbprm-shooter.cc:WeightedTriangle"]}
{"id": "C44", "title": "The random point lies in its triangle", "statement": "The point sampled in a triangle is a convex combination of its vertices for all random draws in [0,1].", "quantifier": "every triangle and all draws", "why_tests_cant": "all reals", "anchors": ["src/rbprm-shooter.cc:RandomPointIntriangle"]}
{"id": "C45", "title": "The configuration shooter always terminates and only returns validated configurations", "statement": "impl_shoot makes at most shootLimit * (2 * displacementLimit + 1) validation attempts and the configuration it returns was accepted by the validator.", "quantifier": "every validator behaviour and random stream", "why_tests_cant": "all oracle behaviours", "anchors": ["src/rbprm-shooter.cc:impl_shoot"]}
{"id": "C46", "title": "Support polygon membership equals half-plane membership", "statement": "InPolygon on a convex polygon, in either orientation, is true for every strictly interior point and false for every point strictly outside; the hull returned by ConvexHull is made of input points and starts at the left-most one.", "quantifier": "every convex polygon and every point", "why_tests_cant": "all reals, all sizes", "anchors": ["src/stability/support.cc:InPolygon", "src/stability/support.cc:ConvexHull", "src/stability/support.cc:LeftMost"]}
{"id": "C47", "title": "closestPointInTriangle returns the closest point of the triangle", "statement": "For every non-degenerate triangle and every source point the returned point is in the triangle, and no point of the triangle is closer to the source.", "quantifier": "every triangle and point", "why_tests_cant": "the wrong region of the case split is a measure-small set of inputs", "anchors": ["src/projection/projection.cc:closestPointInTriangle", "src/projection/projection.cc:clamp"]}
{"id": "C48", "title": "Equilibrium verdicts are read correctly from the LP status", "statement": "IsStable returns the solver's robustness when the LP is optimal, a negative value whenever the LP is infeasible, unbounded or fails, and states with no contact are never reported stable; contact points of non-grasping effectors come before those of grasping ones and each contact contributes its number of support points.", "quantifier": "every state and solver status", "why_tests_cant": "all statuses and contact sets", "anchors": ["src/stability/stability.cc:IsStable", "src/stability/stability.cc:setupLibrary"]}
{"id": "C49", "title": "Projection of a point on a plane lies on the plane and is the closest", "statement": "projectPointOnPlane(p, n, o) with unit n lies on the plane through o with normal n, is the closest point of the plane to p, and the returned distance is the signed/absolute distance.", "quantifier": "every point and plane", "why_tests_cant": "all reals", "anchors": ["src/utils/algorithms.cc:projectPointOnPlane"]}
{"id": "C50", "title": "Convex clipping stays inside both polygons", "statement": "compute2DIntersection and compute3DIntersection return points that are inside the clipping polygon and in the convex hull of the subject polygon, also when the polygons do not meet; for a convex subject polygon the result covers exactly the points that are in both polygons.", "quantifier": "every subject polygon and convex clipping polygon", "why_tests_cant": "all sizes", "anchors": ["src/utils/algorithms.cc:compute2DIntersection"]}
{"id": "C51", "title": "Kinematic constraints follow the contact frame", "statement": "getInequalitiesAtTransform is equivariant: a point x satisfies the constraints placed at transform M iff M^-1 x satisfies the limb's own constraints; constraints of a state are the conjunction over its contacts, so adding a contact never enlarges the feasible set and the order of contacts is irrelevant.", "quantifier": "every point, transform and set of contacts", "why_tests_cant": "all reals, all contact sets", "anchors": ["src/contact_generation/kinematics_constraints.cc:getInequalitiesAtTransform", "src/contact_generation/kinematics_constraints.cc:computeKinematicsConstraintsForState", "src/contact_generation/kinematics_constraints.cc:verifyKinematicConstraints"]}
{"id": "C52", "title": "Reachability verdicts follow from the number of contact changes", "statement": "isReachable between two states answers 'no contact variation' iff neither creation nor break exists, 'too many' iff at least two limbs change their contact, and otherwise success iff some position of the centre of mass satisfies the stability and kinematic constraints of both states, given that the smaller contact set has the stronger stability constraints; success() accepts exactly the statuses documented as reachable; stacking constraints is conjunction.", "quantifier": "every pair of states and LP oracle", "why_tests_cant": "all pairs", "anchors": ["src/contact_generation/reachability.cc:isReachable", "src/contact_generation/reachability.cc:stackConstraints", "include/hpp/rbprm/contact_generation/reachability.hh:Result"]}
{"id": "C53", "title": "Dynamic reachability tries every timing before giving up", "statement": "isReachableDynamic without imposed timings tries the candidate timings in table order, stops at the first feasible one, and only answers unreachable after every row of the table has been tried.", "quantifier": "every solver behaviour", "why_tests_cant": "off-by-one at the end of the table only shows when all earlier rows fail", "anchors": ["src/contact_generation/reachability.cc:isReachableDynamic"]}
{"id": "C54", "title": "Random shortcut keeps the ends and never lengthens the path", "statement": "RandomShortcutDynamic::optimize returns a path with the same initial and final configuration as its input and not longer; it terminates on every path and never dereferences a null result.", "quantifier": "every path, random stream, steering and validation oracle", "why_tests_cant": "liveness over all random streams", "anchors": ["src/planner/random-shortcut-dynamic.cc:optimize"]}
{"id": "C55", "title": "Kinodynamic extension is cut before the first inadmissible acceleration", "statement": "The path returned by the kinodynamic steering method starts (forward) at the node, is a prefix of the computed path, is not longer than the maximum length, and contains no checked switching time at which the acceleration was found inadmissible; dually backwards.", "quantifier": "every path, switching times and admissibility oracle", "why_tests_cant": "all reals and oracle outcomes", "anchors": ["src/planner/rbprm-steering-kinodynamic.cc:impl_compute"]}
{"id": "C56", "title": "Every roadmap edge joins the configurations of its end nodes", "statement": "Every edge inserted by the dynamic planner carries a validated path whose initial configuration is its source node's and whose final configuration is its target node's.", "quantifier": "every history of planning steps and every oracle", "why_tests_cant": "invariant over all histories; needs steering truncation", "anchors": ["src/planner/dynamic-planner.cc:oneStep", "src/planner/dynamic-planner.cc:tryConnectInitAndGoals"]}
{"id": "C57", "title": "Dynamic validation only accepts admissible accelerations", "statement": "After setInitialReport, DynamicValidation::validate(config, report) returns true only if the set of contact surfaces is the initial one, or the acceleration of config is admissible for the contacts in the report.", "quantifier": "every history of validate calls", "why_tests_cant": "cache coherence over histories", "anchors": ["src/dynamic/dynamic-validation.cc:validate"]}
{"id": "C58", "title": "Extracting a time-constraint path commutes with evaluation", "statement": "For a TimeConstraintPath p of positive length and t0<t1 in its range, p.extract(t0,t1) evaluated at s has the extra degree of freedom of p at t0+s; ends match; the extra dof is monotone along a path whose end value is not smaller; a degenerate path evaluates to its initial configuration.", "quantifier": "every path, interval and time", "why_tests_cant": "all reals", "anchors": ["src/interpolation/time-constraint-path.cc:extract", "src/interpolation/time-constraint-path.cc:impl_compute"]}
{"id": "C59", "title": "COM and polynomial trajectories extract consistently", "statement": "ComTrajectory.extract(t0,t1)(s) equals the trajectory at t0+s whenever the end point is consistent with the acceleration law; PolynomTrajectory.extract keeps the curve's values and time stamps.", "quantifier": "every trajectory and interval", "why_tests_cant": "all reals", "anchors": ["src/interpolation/com-trajectory.cc:extract", "src/interpolation/polynom-trajectory.cc:extract"]}
{"id": "C60", "title": "A path accepted by time-constraint validation never goes back in time nor jumps", "statement": "TimeConstraintPathValidation::validate accepts a path only if its extra dof does not decrease and no tenth of the path moves the joints by more than a fifth of the total displacement.", "quantifier": "every path", "why_tests_cant": "all reals; last tenth", "anchors": ["src/interpolation/time-constraint-path-validation.cc:validate"]}
{"id": "C61", "title": "Parallel interpolation is schedule independent and ordered", "statement": "interpolateStates returns the concatenation, in state order, of one path per consecutive pair of states, whatever order the parallel loop runs in; it never returns before all pairs succeeded; fewer than 100 transitions are required and at least one.", "quantifier": "every schedule of the parallel loop and every planner outcome", "why_tests_cant": "schedules", "anchors": ["include/hpp/rbprm/interpolation/time-constraint-helper.inl:interpolateStatesFromPathGetter", "include/hpp/rbprm/interpolation/time-constraint-helper.inl:ConcatenateAndResizePath", "include/hpp/rbprm/interpolation/time-constraint-helper.inl:checkPath"]}
{"id": "C62", "title": "A parabola path follows its parabola", "statement": "ParabolaPath evaluated at a parameter strictly inside its range has its root on the vertical parabola given by the coefficients; at 0 it is the initial and at its length the final configuration.", "quantifier": "every parabola and parameter", "why_tests_cant": "all reals", "anchors": ["src/planner/parabola-path.cc:impl_compute"]}
{"id": "C63", "title": "Stopwatch statistics are consistent", "statement": "For every history of start/stop with non-negative lapses, min <= average <= max over the recorded lapses, total is their sum and the count their number; reset restores the initial record and unknown names throw without side effects.", "quantifier": "every history", "why_tests_cant": "histories, including zero lapses", "anchors": ["src/utils/stop-watch.cc:stop", "src/utils/stop-watch.cc:reset"]}
{"id": "C64", "title": "Isotropy lies in the unit interval", "statement": "The isotropy analysis returns a number in [0,1] for all singular values.", "quantifier": "every list of singular values", "why_tests_cant": "all reals; precedence slip", "anchors": ["src/sampling/analysis.cc:isotropy"]}
{"id": "C65", "title": "Contact matrices have one block per contact point", "statement": "fillNodeMatrices writes, for each ROM in contact, 1 (point) or 4 (rectangular) contact blocks at consecutive indices, never outside the allocated matrices, and the four rectangular points have the contact point as their mean.", "quantifier": "every number of ROMs and both contact models", "why_tests_cant": "index arithmetic for all sizes", "anchors": ["src/planner/rbprm-node.cc:fillNodeMatrices", "src/planner/rbprm-node.cc:computeNodeMatrixForOnePoint"]}
{"id": "C66", "title": "ComputeContacts keeps the requested extra degrees of freedom", "statement": "When ComputeContacts from a previous state succeeds, the last extra-dimension coordinates of the returned configuration are those of the requested configuration and all other coordinates are the ones contact generation produced; a failed report is returned as generated.", "quantifier": "every environment, previous state and requested configuration", "why_tests_cant": "all configurations and dimensions", "anchors": ["src/contact_generation/algorithm.cc:ComputeContacts"]}
{"id": "C67", "title": "No contact is created out of a state without contacts", "statement": "ComputeContacts from a previous state that has no contact never succeeds and returns a state without contacts, whatever surfaces are available.", "quantifier": "every environment and requested configuration", "why_tests_cant": "a universally quantified failure", "anchors": ["src/contact_generation/algorithm.cc:ComputeContacts", "src/contact_generation/contact_generation.cc:gen_contacts"]}
{"id": "C68", "title": "Filtering keeps consecutive states reachable", "statement": "If every state of a plan is reachable from its predecessor (for the reachability test used by the filter), this is still the case after each stage of FilterStates.", "quantifier": "every plan and every reachability oracle", "why_tests_cant": "all plans and oracles", "anchors": ["src/interpolation/rbprm-path-interpolation.cc:FilterRepositioning", "src/interpolation/rbprm-path-interpolation.cc:FilterBreakCreate", "src/interpolation/rbprm-path-interpolation.cc:tryReplaceStates", "src/interpolation/rbprm-path-interpolation.cc:trySkipStates"]}
{"id": "C69", "title": "A planned state is dated like the sample it was generated for", "statement": "In the plan built by Interpolate the date of every generated state is the path parameter of the sampled configuration it was generated from (or, after a repositioning, the date of the preceding state).", "quantifier": "every list of configurations and every contact generator", "why_tests_cant": "dates drift only after rare failure histories", "anchors": ["src/interpolation/rbprm-path-interpolation.cc:Interpolate"]}
{"id": "C70", "title": "States returned by contact generation carry complete contact data", "statement": "From a previous state whose contact, position, normal and rotation maps have the same keys, ComputeContacts returns - success or failure, repositioned or not - a state whose four maps have the same keys; so does ComputeContacts without previous state.", "quantifier": "every environment, previous state and requested configuration", "why_tests_cant": "an invariant over all failure paths", "anchors": ["src/contact_generation/algorithm.cc:ComputeContacts", "src/contact_generation/contact_generation.cc:repositionContacts"]}
{"id": "C71", "title": "A failed contact step is reported as repositioned", "statement": "If ComputeContacts from a previous state with complete contact data fails, or reports more than one broken contact, its report says that the robot was repositioned in place; in particular a normal step breaks at most one contact.", "quantifier": "every environment, previous state and requested configuration", "why_tests_cant": "counting argument over all candidate combinations", "anchors": ["src/contact_generation/algorithm.cc:ComputeContacts", "src/contact_generation/algorithm.cc:oneStep", "src/contact_generation/contact_generation.cc:maintain_contacts_combinatorial"]}
{"id": "C72", "title": "Planned states count their contacts", "statement": "Every state after the first in the plan built by Interpolate has nbContacts equal to its number of contacts and complete contact data, if the start state's contact data is complete.", "quantifier": "every environment, list of configurations and start state", "why_tests_cant": "an invariant of every failure history", "anchors": ["src/interpolation/rbprm-path-interpolation.cc:Interpolate"]}
{"id": "C73", "title": "A completed interpolation served every sample", "statement": "If Interpolate reaches the end of the list of configurations, contact generation succeeded without repositioning for every configuration after the first, each time from a state of the plan; the requested configuration has the root and extra dofs of the sample and the other joints of the last generated configuration.", "quantifier": "every list of configurations and every contact generator", "why_tests_cant": "all histories of failures and repositionings", "anchors": ["src/interpolation/rbprm-path-interpolation.cc:Interpolate", "src/interpolation/rbprm-path-interpolation.cc:loadPreviousConfiguration"]}
{"id": "C74", "title": "Generated samples describe real configurations", "statement": "GenerateSamples returns max(1, nbSamples) samples numbered from 0; each holds the limb segment, effector positions, jacobian and manipulability of one and the same robot configuration: the neutral one for sample 0, the i-th shot one for sample i.", "quantifier": "every limb, shooter and number of samples", "why_tests_cant": "all shots and device states", "anchors": ["src/sampling/sample.cc:GenerateSamples", "src/sampling/sample.cc:Sample"]}
{"id": "C75", "title": "Loading a sample only writes its limb", "statement": "Load(sample, q) overwrites exactly the segment of the limb in q; it is idempotent, and loading another sample of the same limb afterwards forgets the first.", "quantifier": "every sample and configuration", "why_tests_cant": "all configurations", "anchors": ["src/sampling/sample.cc:Load"]}
{"id": "C76", "title": "Limb groups and limb collision validations track the registrations", "statement": "After any history of limb operations the limbs of a name group are exactly the successfully registered contacting limbs of that name in registration order, every registered contacting limb has its own collision validation knowing the obstacles it was registered with, and the body validation was built from the obstacles of the first one.", "quantifier": "every history of operations", "why_tests_cant": "invariant over histories, including refused registrations", "anchors": ["src/rbprm-fullbody.cc:AddLimbPrivate"]}
{"id": "C77", "title": "Registering an evaluation function never replaces one", "statement": "AddHeuristic and AddAnalysis return true iff the name was free; afterwards the name denotes the function that was registered first, and no other name changes.", "quantifier": "every history of registrations", "why_tests_cant": "histories of name clashes", "anchors": ["src/rbprm-fullbody.cc:AddHeuristic", "src/sampling/heuristic.cc:AddHeuristic", "src/sampling/analysis.cc:AddAnalysis"]}
{"id": "C78", "title": "A validator requires the ROMs of the filter it was built with", "statement": "RbPrmValidation built with a filter and affordance filters accepts a configuration (default overloads) iff the trunk is free of the given obstacles, the bounds hold, and every ROM of the filter touches an object of one of the affordance types given for it.", "quantifier": "every set of ROMs, filters, affordances, configurations", "why_tests_cant": "all combinations of filters and affordances", "anchors": ["src/rbprm-validation.cc:RbPrmValidation"]}
{"id": "C79", "title": "Validation overloads agree and validation leaves no trace in the answers", "statement": "The overloads without filter use the default filter, those without report give the same answer as those with one, and the answer of a validation does not depend on the validations made before.", "quantifier": "every history of validations", "why_tests_cant": "histories; hidden mutable pair order", "anchors": ["src/rbprm-validation.cc:validate", "src/rbprm-validation.cc:validateRoms"]}
{"id": "C80", "title": "A rejected path is reported with the configuration that was rejected", "statement": "When the validation of a path fails, the path report holds the validation report of the configuration at the reported parameter; the overloads with and without filter, of the plain and of the dynamic path validation, are defined for every path.", "quantifier": "every path, validator behaviour and filter", "why_tests_cant": "path evaluation failures in the middle of a path", "anchors": ["src/rbprm-path-validation.cc:validate", "src/dynamic/dynamic-path-validation.cc:validate"]}
{"id": "C81", "title": "Shot orientations respect BoundSO3", "statement": "After BoundSO3 the Euler angles drawn by the shooter lie in the given limits, every orientation within them can be drawn, and the root quaternion written in the configuration is a unit quaternion, the other coordinates being untouched.", "quantifier": "every limits, draw and configuration", "why_tests_cant": "all reals", "anchors": ["src/rbprm-shooter.cc:SampleRotation"]}
{"id": "C82", "title": "The shooter samples exactly the surfaces named in the affordance filters", "statement": "The surfaces on which configurations are shot are the objects of the affordance types named in at least one affordance filter; a type named by several ROMs is counted once.", "quantifier": "every affordance map and set of filters", "why_tests_cant": "all combinations of filters", "anchors": ["src/rbprm-shooter.cc:getUsedSurfaces"]}
{"id": "C83", "title": "The support polygon is the convex hull of the foot rectangles", "statement": "Contains(support, point, xs, ys) ends and answers true exactly when the point, seen from above, is in the convex hull of the corners of all contact rectangles (up to the boundary).", "quantifier": "every set of contact rectangles and every point", "why_tests_cant": "aligned corners are the generic case for identical feet", "anchors": ["src/stability/support.cc:Contains", "src/stability/support.cc:ConvexHull"]}
{"id": "C84", "title": "Membership in a triangle", "statement": "The test whether the projection of a point falls inside a triangle answers true exactly when all barycentric coordinates of that projection are non-negative.", "quantifier": "every non-degenerate triangle and point", "why_tests_cant": "all reals", "anchors": ["src/projection/projection.cc:pointInTriangle"]}
{"id": "C85", "title": "The convex hull of contact surfaces ends on every input", "statement": "geom::convexHull ends on every list of points, duplicates and aligned points included; the result is empty for no points and otherwise is a closed list of input points that starts at a left-most one.", "quantifier": "every list of points", "why_tests_cant": "termination on every degenerate input", "anchors": ["src/utils/algorithms.cc:convexHull", "src/utils/algorithms.cc:leftMost"]}
{"id": "C86", "title": "geom::contains is membership in the convex hull", "statement": "geom::contains(points, p) answers true exactly when p, seen from above, is in the convex hull of the points.", "quantifier": "every list of points and every point", "why_tests_cant": "all reals, all sizes; degenerate sets", "anchors": ["src/utils/algorithms.cc:contains", "src/utils/algorithms.cc:containsHull", "src/utils/algorithms.cc:convexHull"]}
{"id": "C87", "title": "Area, centroid and centre of a polygon", "statement": "For every closed polygon area() is its area (the absolute value of the sum of signed triangle areas, whatever the reference point), centroid() is its area-weighted centroid and returns its signed area; for a convex polygon the centroid, and for every polygon the centre, are in the convex hull of the vertices.", "quantifier": "every closed polygon", "why_tests_cant": "all sizes, all reals", "anchors": ["src/utils/algorithms.cc:area", "src/utils/algorithms.cc:centroid", "src/utils/algorithms.cc:center"]}
{"id": "C88", "title": "Sections of a mesh by a plane", "statement": "intersectSegmentPlane returns points of the segment that are on the plane up to the tolerance, exactly when it is not almost parallel, and never an empty list when the segment meets the plane; intersectPolygonePlane returns a closed polygon of such points of the edges of the mesh, empty only if no edge meets the plane.", "quantifier": "every segment, mesh and plane", "why_tests_cant": "parallel and touching cases", "anchors": ["src/utils/algorithms.cc:intersectSegmentPlane", "src/utils/algorithms.cc:intersectPolygonePlane"]}
{"id": "C89", "title": "Intersection of two triangles", "statement": "intersectTriangles(t, t2) is defined for every pair of triangles and returns exactly the points of the edges of t that are on the plane of t2 and inside t2 (up to the tolerance).", "quantifier": "every pair of triangles", "why_tests_cant": "vertices on the plane, triangles on one side of it", "anchors": ["src/utils/algorithms.cc:intersectTriangles", "src/utils/algorithms.cc:insideTriangle", "src/utils/algorithms.cc:computeTrianglePlaneDistance"]}
{"id": "C90", "title": "Projection of a point inside a contact polygon", "statement": "projectPointInsidePlan yields a point of the plane that is inside the polygon, equal to the orthogonal projection when this one is inside, and returns its distance to the given point.", "quantifier": "every polygon of a plane and every point", "why_tests_cant": "corner regions of the polygon", "anchors": ["src/utils/algorithms.cc:projectPointInsidePlan", "src/utils/algorithms.cc:lineSect3D"]}
{"id": "C91", "title": "Supports reduced to a point or a segment", "statement": "When the support is a single point or a segment, a point is inside exactly when it is nearer than the tolerance to that point or segment.", "quantifier": "every degenerate support and every point", "why_tests_cant": "aligned contacts and axis-parallel segments", "anchors": ["src/stability/support.cc:DistancePointSegment", "src/stability/support.cc:InPolygon", "src/stability/support.cc:Contains"]}
{"id": "C92", "title": "Constraints read in a mesh", "statement": "A point satisfies the kinematic constraints loaded from a mesh iff it is not strictly outside of any of its oriented faces and, when a positive minimal distance is given, its height is at least that distance.", "quantifier": "every mesh, minimal distance and point", "why_tests_cant": "all meshes and points", "anchors": ["src/contact_generation/kinematics_constraints.cc:loadConstraintsFromObj", "src/contact_generation/kinematics_constraints.cc:triangleNormal"]}
{"id": "C93", "title": "Stability constraints are the contact cone at the centre of mass", "statement": "A position satisfies the stability constraints of a state for an acceleration iff the gravito-inertial wrench at that position satisfies the inequalities of the contact polytope given by the library.", "quantifier": "every polytope, acceleration, mass, gravity and position", "why_tests_cant": "all reals", "anchors": ["src/contact_generation/reachability.cc:computeStabilityConstraints"]}
{"id": "C94", "title": "Reachability takes the given acceleration into account", "statement": "isReachable answers for the acceleration that is given, with or without an intermediate state.", "quantifier": "every pair of states and acceleration", "why_tests_cant": "repositioning with intermediate state", "anchors": ["src/contact_generation/reachability.cc:isReachable", "src/contact_generation/reachability.cc:isReachableIntermediate"]}
{"id": "C95", "title": "The point of a quasi-static transition is feasible", "statement": "When isReachableDynamic or isReachable with an intermediate state reports a transition as reachable, the reported position of the centre of mass satisfies the constraints that the break and the creation have in common.", "quantifier": "every pair of states", "why_tests_cant": "transitions with only a creation or only a break", "anchors": ["src/contact_generation/reachability.cc:isReachableIntermediate", "src/contact_generation/reachability.cc:isReachableDynamic"]}
{"id": "C96", "title": "Paths and final state of a dynamic transition", "statement": "When a dynamic transition is found, its path lasts the sum of the timings, the paths of the phases follow each other and last the time of their phase, all on the curve of the solver, and only the velocity and acceleration in the second state's configuration change; with any other answer the second state is unchanged.", "quantifier": "every pair of states, timings and solver", "why_tests_cant": "two or three phases, given or tabulated timings", "anchors": ["src/contact_generation/reachability.cc:isReachableDynamic"]}
{"id": "C97", "title": "Dynamic reachability only frees what it allocated", "statement": "isReachableDynamic deletes only objects that were allocated on the heap.", "quantifier": "every call", "why_tests_cant": "undefined behaviour is not observable in a unit test's assertions", "anchors": ["src/contact_generation/reachability.cc:isReachableDynamic"]}
{"id": "C98", "title": "Stop-watch pause accumulates", "statement": "A measure interrupted by pause and resumed by start counts the time elapsed between each start and the following pause or stop, in seconds, in the total and in the last time.", "quantifier": "every history of start, pause and stop, in both time taking modes", "why_tests_cant": "all histories and clock readings", "anchors": ["src/utils/stop-watch.cc:pause", "src/utils/stop-watch.cc:start"]}
{"id": "C99", "title": "Singular value analyses", "statement": "The minimum (maximum) singular value analysis returns the least (greatest) singular value of the jacobian, of its first three rows (translation) or of its last three rows (rotation).", "quantifier": "every jacobian", "why_tests_cant": "all matrices", "anchors": ["src/sampling/analysis.cc:minSing", "src/sampling/analysis.cc:maxSing"]}
{"id": "C100", "title": "Manipulability analysis", "statement": "The manipulability is not negative, its square is the determinant of the product of the selected jacobian with its transpose, and it is 0 exactly if some direction cannot be produced by the joints.", "quantifier": "every jacobian and the three modes", "why_tests_cant": "all matrices", "anchors": ["src/sampling/analysis.cc:manipulability"]}
{"id": "C101", "title": "Self collision probability", "statement": "The analysis returns the fraction of reference configurations of this robot that are free of collision with the limb in the configuration of the sample, in [0, 1], and leaves the configuration of the device unchanged.", "quantifier": "every robot, sample and set of reference configurations", "why_tests_cant": "several robots in one process", "anchors": ["src/sampling/analysis.cc:selfCollisionProbability", "src/sampling/analysis.cc:FullBodyDB"]}
{"id": "C102", "title": "Joint limit distance", "statement": "The score only depends on the joints of the limb and their bounds: it grows with the smallest margin, is negative exactly if some joint of the limb is out of its bounds and 0 if the smallest margin is 0.", "quantifier": "every limb and configuration", "why_tests_cant": "all chains and effector names", "anchors": ["src/sampling/analysis.cc:distanceToLimits", "src/sampling/analysis.cc:distanceRec"]}
{"id": "C103", "title": "Reference configuration score", "statement": "With positive weights the score is at most 100, it is 100 exactly if all degrees of freedom of the limb are those of the reference, and it does not decrease when all of them come nearer to it.", "quantifier": "every limb, configuration and weights", "why_tests_cant": "limbs whose last joint has several degrees of freedom", "anchors": ["src/sampling/analysis.cc:referenceConfiguration"]}
{"id": "C104", "title": "The limb of a sample", "statement": "An analysis evaluates a sample with the limb it was generated for.", "quantifier": "every set of limbs of a full body", "why_tests_cant": "several limbs that start at the same joint", "anchors": ["src/sampling/analysis.cc:getLimbFromStartRank"]}
{"id": "C105", "title": "Copies of the heuristic parameters", "statement": "A copy of the heuristic parameters, and the target of an assignment, have the contents of the source.", "quantifier": "every parameters", "why_tests_cant": "all members", "anchors": ["src/sampling/heuristic-tools.cc:HeuristicParam"]}
{"id": "C106", "title": "Contacts on the ground", "statement": "removeNonGroundContacts keeps, unchanged, exactly the contacts that are at most the threshold above the lowest one, hence at least one of a non-empty set.", "quantifier": "every set of contacts and threshold", "why_tests_cant": "all heights", "anchors": ["src/sampling/heuristic-tools.cc:removeNonGroundContacts"]}
{"id": "C107", "title": "Projection on a plane and support polygon", "statement": "The orthogonal projection is the nearest point of the plane; the support polygon consists of the horizontal coordinates of the contacts; transform is a rotation followed by a translation.", "quantifier": "every point, non-degenerate plane, rotation and set of contacts", "why_tests_cant": "all reals", "anchors": ["src/sampling/heuristic-tools.cc:orthogonalProjection", "src/sampling/heuristic-tools.cc:computeSupportPolygon", "src/sampling/heuristic-tools.cc:transform"]}
{"id": "C108", "title": "Planar convex hull of the heuristics", "statement": "For every list of points that the comparison tolerance tells apart, the result of convexHull consists of points of the list, without repetition, and has the same convex hull as the list.", "quantifier": "every list of points, in any order, with aligned points and repetitions", "why_tests_cant": "all configurations of points", "anchors": ["src/sampling/heuristic-tools.cc:convexHull", "src/sampling/heuristic-tools.cc:scanningProcess"]}
{"id": "C109", "title": "Weighted centroid", "statement": "For a polygon whose vertices are not all equal the computation terminates; the result is the mean of the means of the groups of neighbouring vertices closer than a tenth of the longest edge, and lies in the convex hull of the vertices.", "quantifier": "every polygon", "why_tests_cant": "all polygons", "anchors": ["src/sampling/heuristic-tools.cc:weightedCentroidConvex2D"]}
{"id": "C110", "title": "Dynamic heuristic", "statement": "The dynamic heuristic always terminates; its value is minus the distance of the point of interest to the weighted centroid of the contacts on the ground including the one of the sample; in the point of interest the speed dominates the acceleration along both horizontal axes.", "quantifier": "every sample, contacts, position, speed and acceleration", "why_tests_cant": "loops over real numbers", "anchors": ["src/sampling/heuristic.cc:dynamicHeuristic"]}
{"id": "C111", "title": "Preferences of the heuristics", "statement": "Whatever the random numbers, the heuristics rank samples as their names say: EFORT is a non-negative quadratic form on upward surfaces, manipulability prefers flat surfaces, forward (backward) prefers effectors further (less far) in the direction, fixedStep prefers effectors near the reference position ahead.", "quantifier": "every pair of samples, direction, normal and random numbers", "why_tests_cant": "random draws and all real values", "anchors": ["src/sampling/heuristic.cc:EFORTHeuristic", "src/sampling/heuristic.cc:ForwardHeuristic", "src/sampling/heuristic.cc:fixedStepHeuristic"]}
{"id": "C112", "title": "Dynamic walk heuristic", "statement": "On flat ground the dynamic walk heuristic never prefers a position across the direction of motion to its mirror image on the limb's own side; without direction it does not depend on the direction nor on the normal.", "quantifier": "every sample, direction and position", "why_tests_cant": "angles of all quadrants", "anchors": ["src/sampling/heuristic.cc:DynamicWalkHeuristic"]}
{"id": "C113", "title": "Friction rays and foot rectangle of a node", "statement": "For every surface the friction cone stored in a roadmap node has four unit rays at the slope of the friction coefficient, in two orthogonal tangent directions, and the corners of a rectangular contact are at the foot's sizes from the contact point.", "quantifier": "every unit normal, head direction, friction coefficient and foot size", "why_tests_cant": "all reals", "anchors": ["src/planner/rbprm-node.cc:computeNodeMatrixForOnePoint"]}
{"id": "C114", "title": "Contact surface of a ROM", "statement": "Among several surfaces in collision with a ROM the one whose intersection with the ROM is nearest to the reference position is chosen, for each ROM; the contact point lies on the intersection, and there is none if the intersection is empty.", "quantifier": "every report, reference and intersection", "why_tests_cant": "all surfaces", "anchors": ["src/planner/rbprm-node.cc:chooseBestContactSurface", "src/planner/rbprm-node.cc:approximateContactPoint"]}
{"id": "C115", "title": "Oriented path optimizer", "statement": "The oriented path optimizer returns a path with the same ends; every element whose oriented version is valid together with its neighbours is replaced by it, and the others are kept.", "quantifier": "every path vector and validation oracle", "why_tests_cant": "all paths and validity patterns", "anchors": ["src/planner/oriented-path-optimizer.cc:optimize", "src/planner/oriented-path-optimizer.cc:checkReplaceOrientation"]}
{"id": "C116", "title": "Acceleration bounds of an extension", "statement": "The acceleration bounds used for an extension never exceed, along any axis, the components of the largest admissible acceleration in the direction of the extension, nor the fixed bounds.", "quantifier": "every node, target, direction and largest acceleration", "why_tests_cant": "all reals", "anchors": ["src/planner/rbprm-steering-kinodynamic.cc:setSteeringMethodBounds"]}
{"id": "C117", "title": "Jumps of the parabola steering method", "statement": "Whenever the steering method returns a jump, free fall from the first configuration with the take-off velocity it stores reaches the second configuration at the time it gives as length, with the landing velocity it stores; both speeds are within the bounds; the jump is never above both the ceiling and its two ends. No admissible take-off angle at least 0.001 rad above the target is excluded from the searched interval.", "quantifier": "every pair of configurations with different horizontal positions, gravity, speed bounds and validation oracle", "why_tests_cant": "all reals; trigonometric case distinctions", "anchors": ["src/planner/steering-method-parabola.cc:compute_3D_path", "src/planner/steering-method-parabola.cc:computeCoefficients", "src/planner/steering-method-parabola.cc:second_constraint", "src/planner/steering-method-parabola.cc:sixth_constraint"]}
{"id": "C118", "title": "Timed jump", "statement": "A timed jump starts and ends at its end configurations, is at every time at the position of the free fall with its velocity and acceleration, has its duration as time range, and its reverse goes through the same configurations backwards.", "quantifier": "every returned jump and every time", "why_tests_cant": "all times", "anchors": ["src/planner/timed-parabola-path.cc:impl_compute", "src/planner/timed-parabola-path.cc:reverse"]}
{"id": "C119", "title": "B\u00e9zier paths", "statement": "A B\u00e9zier path evaluated at the ends of its time range is at its initial and end configurations, is on the curve at every time of its range, interpolates the joints with the fraction of time elapsed, and stays at its ends outside of its range; a path built from waypoints starts and ends at the given configurations' joints.", "quantifier": "every curve, pair of configurations and time", "why_tests_cant": "all times and curves", "anchors": ["src/interpolation/bezier-path.cc:impl_compute", "src/interpolation/bezier-path.cc:initial", "src/interpolation/bezier-path.cc:end"]}
{"id": "C120", "title": "Random configurations along the reference path", "statement": "A random configuration for the motion between two states is the configuration of the reference path at the drawn fraction of its duration, which is also its extra degree of freedom, except for the limbs that are free between the two states: each of these is in one of its database samples. Every sample of a free limb can be drawn; a limb with fewer than two samples makes the call throw.", "quantifier": "every reference path, pair of states, set of limbs and sequence of random numbers", "why_tests_cant": "all random numbers and databases", "anchors": ["src/interpolation/time-constraint-shooter.cc:impl_shoot", "src/interpolation/limb-rrt-shooter.cc:GetVaryingLimb", "src/interpolation/com-rrt-shooter.cc:GetFreeLimbs"]}
{"id": "C121", "title": "Constraints of the motion between two states", "statement": "Every configuration accepted by the constraints of a motion between two states keeps each contact that both states share at its place (and orientation for surface contacts); effectorRRT and comRRT also keep the centre of mass and the effector on their references and obey the joints that the caller constrains. The configurations of both states are accepted.", "quantifier": "every pair of states, configuration and instant", "why_tests_cant": "all configurations and states", "anchors": ["src/interpolation/interpolation-constraints.cc:addContactConstraints", "src/interpolation/com-rrt.cc:SetComRRTConstraints", "src/interpolation/effector-rrt.cc:SetEffectorRRTConstraints"]}
{"id": "C122", "title": "Projection on a COM", "statement": "Projecting a state on a centre of mass returns a configuration of the robot's size whose joints satisfy the contacts and the centre of mass whenever the answer is true, and keeps the extra degrees of freedom of the state.", "quantifier": "every state, target and projector", "why_tests_cant": "all projectors and configurations", "anchors": ["src/interpolation/com-rrt.cc:projectOnCom"]}
{"id": "C123", "title": "Sizes and continuity of the interpolated path", "statement": "The path between states returned by the interpolation goes through the configurations of the states in order, its configurations and derivatives have the sizes of the robot's, and it is continuous also when the extra degree of freedom is kept.", "quantifier": "every sequence of states and schedule", "why_tests_cant": "all sequences of states", "anchors": ["include/hpp/rbprm/interpolation/time-constraint-helper.inl:ConcatenateAndResizePath", "include/hpp/rbprm/interpolation/time-constraint-utils.hh:TimeConfigFromDevice"]}
{"id": "C124", "title": "Effector trajectory", "statement": "The trajectory of a moving effector starts at rest at its position in the first state, leaves the contact straight along its normal, has continuous position, velocity, acceleration and jerk, lands straight along the normal of the new contact and ends at rest at its position in the second state.", "quantifier": "every pair of states, centre-of-mass path and result of the solver within its contract", "why_tests_cant": "all curves", "anchors": ["src/interpolation/effector-rrt.cc:generateEndEffectorBezier", "src/interpolation/effector-rrt.cc:fitBeziersToPath", "src/interpolation/effector-rrt.cc:buildPredefinedPath"]}
{"id": "C125", "title": "Height and durations of the take-off", "statement": "During take-off and landing the effector is never below its contact, its height is monotone and bounded by the maximal height, all durations are positive and the effector does not move during the announced delay, whatever the duration of the centre-of-mass path.", "quantifier": "every duration of the centre-of-mass path", "why_tests_cant": "all reals", "anchors": ["src/interpolation/effector-rrt.cc:computePredefConstants", "src/interpolation/effector-rrt.cc:generateEndEffectorBezier"]}
{"id": "C126", "title": "Choice of the effector reference", "statement": "effectorRRT returns the whole-body path that follows the first of its reference curves that can be followed, and stores its three curves under the number of the returned path; if none can be followed, or the effector does not move, it returns the path of comRRT. It returns in every case.", "quantifier": "every solver, pair of states and outcome of the planner for each reference", "why_tests_cant": "all outcomes of 19 attempts", "anchors": ["src/interpolation/effector-rrt.cc:effectorRRTFromPath", "src/interpolation/effector-rrt.cc:fitBeziersToPath"]}
{"id": "C127", "title": "Effector along a whole-body path", "statement": "The position of the effector at a fraction of the whole-body motion is its position at the first multiple of 0.01 of the path parameter whose time reaches that fraction of the last time; the search always ends; fractions 0 and 1 give the first and last positions.", "quantifier": "every path and fraction", "why_tests_cant": "all paths", "anchors": ["src/interpolation/effector-rrt.cc:EndEffectorPath::operator()"]}
{"id": "C128", "title": "Locked joints", "statement": "Projecting a state to a root configuration fixes the coordinates of exactly the joints that belong to no limb, at their value in the requested configuration; projecting a limb fixes exactly the joints outside the limb, at their value in the current configuration of the robot. The default effector of a limb is the end of its chain of joints.", "quantifier": "every tree of joints, set of limbs and configuration", "why_tests_cant": "all trees", "anchors": ["src/projection/projection.cc:LockFromRoot", "src/tools.cc:LockJointRec", "src/rbprm-limb.cc:GetEffector"]}
{"id": "C129", "title": "Collision pairs of limbs and body", "statement": "The collision validation of a limb tests all its joints against all obstacles, except the joints at and below its effector if the collisions of the effector are disabled; the validation of the body tests all joints of the robot except the effectors of the limbs that disable them.", "quantifier": "every tree of joints, list of limbs and obstacles", "why_tests_cant": "all trees and histories of limb additions", "anchors": ["include/hpp/rbprm/tools.hh:addLimbCollisionRec", "src/rbprm-fullbody.cc:RbPrmFullBody::AddLimbPrivate"]}
{"id": "C130", "title": "Collision tests during a motion", "statement": "While limbs move between two states, the tests against the obstacles that are dropped are exactly those of the joints outside the moving limbs and of the joints at or below the effectors of moving limbs whose effector collisions are disabled; none is added.", "quantifier": "every tree of joints, moving limbs and collision pairs", "why_tests_cant": "all trees", "anchors": ["include/hpp/rbprm/interpolation/time-constraint-helper.inl:DisableUnNecessaryCollisions", "include/hpp/rbprm/tools.hh:RemoveNonLimbCollisionRec", "include/hpp/rbprm/tools.hh:RemoveEffectorCollision"]}
{"id": "C131", "title": "Placement of a contact", "statement": "When the projection of a limb to an obstacle succeeds, the contact point of the effector (its frame moved by the limb's offset) is one millimetre above the requested position along the normal, the normal of the effector is aligned with the obstacle's (or its orientation is the requested one), and for a contact found from a sample the contact point is above a point of the obstacle's triangle; for point and surface contacts, with or without the postural task.", "quantifier": "every robot, limb, configuration, obstacle and projector within its contract", "why_tests_cant": "all rotations and positions", "anchors": ["src/projection/projection.cc:computeProjectionMatrix", "src/projection/projection.cc:projectEffector", "src/projection/projection.cc:projectSampleToObstacle", "src/tools.cc:GetRotationMatrix"]}
{"id": "C132", "title": "Projections to a root or centre of mass", "statement": "When the projection of a state to a root position, a root configuration or a position of the centre of mass succeeds, the returned configuration keeps every contact of the state in place and reaches the target; whether it succeeds or not, the returned state has all the other attributes of the given state. They do not throw for states of the robot.", "quantifier": "every robot, state and target", "why_tests_cant": "all states and projectors", "anchors": ["src/projection/projection.cc:projectToRootPosition", "src/projection/projection.cc:projectToRootConfiguration", "src/projection/projection.cc:projectToComPosition", "src/projection/projection.cc:CreateContactConstraints"]}
{"id": "C133", "title": "Collision-free projection to a centre of mass", "statement": "When the collision-free projection to a position of the centre of mass succeeds, the configuration keeps the contacts, reaches the target and is free of collisions; it succeeds when the samples of the free limbs give such a configuration.", "quantifier": "every robot, state, target and set of samples", "why_tests_cant": "all states and samples", "anchors": ["src/projection/projection.cc:projectToColFreeComPosition", "src/projection/projection.cc:setCollisionFree"]}
{"id": "C134", "title": "Projection of a state to an obstacle", "statement": "When the projection of a limb of a state to an obstacle succeeds, the returned state is consistent, has the limb's contact last with the position, orientation and normal of its effector, and keeps all other contacts, which stay in place; with locked joints only the limb moves. On failure the contact of the limb is removed and nothing else changes.", "quantifier": "every robot, state, limb and obstacle", "why_tests_cant": "all states and projectors", "anchors": ["src/projection/projection.cc:projectStateToObstacle", "src/projection/projection.cc:projectSampleToObstacle", "src/projection/projection.cc:projectToObstacle"]}
{"id": "C135", "title": "Elementary rotation matrices", "statement": "GetXRotMatrix, GetYRotMatrix and GetZRotMatrix return the rotation by the given angle about the x, y and z axis.", "quantifier": "every angle and content of the uninitialised memory", "why_tests_cant": "all angles", "anchors": ["src/tools.cc:GetXRotMatrix", "src/tools.cc:GetYRotMatrix", "src/tools.cc:GetZRotMatrix"]}
{"id": "C136", "title": "Quaternion distance and interpolation", "statement": "The distance between unit quaternions is the angle of the rotation between them: between 0 and pi, symmetric, zero exactly for the same rotation, the same for opposite quaternions, with the triangle inequality. The interpolation starts at the first, ends at the second up to sign, has unit norm and moves at constant angular speed along the shortest rotation.", "quantifier": "every pair of unit quaternions and parameter", "why_tests_cant": "all quaternions", "anchors": ["src/tools.cc:interpolate", "src/tools.cc:distance", "src/tools.cc:angleBetweenQuaternions"]}
{"id": "C137", "title": "Device with ranges of motion", "statement": "Setting the configuration or the number of extra degrees of freedom of an RbPrmDevice does so for all its ROMs and answers whether something changed; the effector reference of a ROM is the last one set, and (0,0,0) if none was set.", "quantifier": "every device and history of calls", "why_tests_cant": "all histories", "anchors": ["src/rbprm-device.cc:RbPrmDevice::currentConfiguration", "src/rbprm-device.cc:RbPrmDevice::setDimensionExtraConfigSpace", "src/rbprm-device.cc:RbPrmDevice::getEffectorReference", "src/rbprm-device.cc:RbPrmDevice::setEffectorReference"]}
{"id": "C138", "title": "Frames and reference positions of limbs", "statement": "The normal and the offset of a limb, seen in the robot's neutral configuration, are the ones given when it was added; the reference position of each limb is that of its effector relative to the root in the current reference configuration. Adding a limb does not move the robot.", "quantifier": "every robot, state of the device and history of additions, toggles and reference configurations", "why_tests_cant": "all histories", "anchors": ["src/rbprm-limb.cc:GetEffectorTransform", "src/rbprm-limb.cc:computeEffectorReferencePosition", "src/rbprm-limb.cc:RbPrmLimb::RbPrmLimb", "src/rbprm-fullbody.cc:RbPrmFullBody::referenceConfig"]}
{"id": "C139", "title": "Effector position predicted by a sample", "statement": "A sample holds the coordinates of the joints from the limb to its effector, and the effector position it predicts for any placement of the root is the position of the contact point once the sample is loaded; it depends on the joints of the limb only.", "quantifier": "every placement of the root when the sample is generated and when it is used, every offset", "why_tests_cant": "all placements", "anchors": ["src/sampling/sample.cc:ComputeEffectorPosition", "src/sampling/sample.cc:ComputeEffectorPositionInLimbFrame", "src/sampling/sample.cc:ComputeLength", "src/projection/projection.cc:projectSampleToObstacle"]}
{"id": "C140", "title": "Obstacles with a placement", "statement": "The position and the normal of a contact are on the surface of the obstacle where it is in the world, whatever the placement of the obstacle.", "quantifier": "every obstacle placement, triangle and effector position", "why_tests_cant": "all placements", "anchors": ["src/sampling/sample-db.cc:GetCandidates", "src/projection/projection.cc:projectSampleToObstacle"]}
{"id": "C141", "title": "What calls leave in the robot", "statement": "ComputeContacts, the stability tests, ComputeCentroidalCone, GenerateFullBodyDB and selfCollisionProbability leave the robot in the configuration it was in before the call, with transforms computed for it, and with the computation flag it had, also when they throw.", "quantifier": "every robot, configuration and behaviour of the called functions", "why_tests_cant": "all behaviours of the called functions", "anchors": ["src/contact_generation/algorithm.cc:ComputeContacts", "src/stability/stability.cc:setupLibrary", "src/stability/stability.cc:IsStable", "src/sampling/analysis.cc:GenerateFullBodyDB", "src/sampling/analysis.cc:selfCollisionProbability"]}
{"id": "C142", "title": "Centroidal cone of a state", "statement": "ComputeCentroidalCone returns the cone of the wrenches that the contacts of the state can generate for the given friction coefficient; when it cannot be computed the result says so.", "quantifier": "every robot, state, friction coefficient and behaviour of the library", "why_tests_cant": "all states", "anchors": ["src/stability/stability.cc:ComputeCentroidalCone", "src/stability/stability.cc:setupLibrary"]}
{"id": "C143", "title": "Names of the built-in evaluation functions", "statement": "The names of the built-in heuristics and analyses denote the functions that they name: fixedStep1, 08, 06 and 04 look 1, 0.8, 0.6 and 0.4 ahead, analyses with the suffix Rot (Tr) use the rotation (translation) rows of the jacobian; there is no other built-in heuristic, and nothing a user registers changes what these names denote.", "quantifier": "every sample, direction, normal, parameters and history of registrations", "why_tests_cant": "all samples and histories", "anchors": ["src/sampling/heuristic.cc:HeuristicFactory::HeuristicFactory", "src/sampling/analysis.cc:AnalysisFactory::AnalysisFactory", "src/sampling/heuristic.cc:fixedStep08Heuristic"]}
{"id": "C144", "title": "Verdicts of the dynamic reachability test", "statement": "isReachableDynamic answers 'same root position' exactly when the positions of the root agree; otherwise 'no contact variation' exactly when no limb changes its contact, 'too many variations' exactly when two limbs do, and 'unable to compute' when contacts are only created or only broken and the smaller state has at most one contact; it answers 'quasi-static' only if that is to be tried. It is a success only if the transition is possible.", "quantifier": "every pair of states, timings and solver", "why_tests_cant": "all pairs of states", "anchors": ["src/contact_generation/reachability.cc:isReachableDynamic"]}
{"id": "C145", "title": "The point that the reachability test looks for", "statement": "isReachable asks for the position of the centre of mass nearest to the point above the mean of the contact points that both states have in common, at the mean height of the centres of mass of the two states, and gives the answer of the solver for it.", "quantifier": "every pair of states and solver", "why_tests_cant": "all pairs of states", "anchors": ["src/contact_generation/reachability.cc:isReachable", "src/contact_generation/reachability.cc:intersectionExist"]}
{"id": "C146", "title": "When the interpolation gives up", "statement": "Interpolate stops before the end of the path exactly at the second failure it notices (failed contact generation, or several contacts broken, unless two recontacts in a row have just happened) or at the twenty-first repositioning; a run that reaches the end had at most one such failure and twenty repositionings.", "quantifier": "every contact generation, path and sampling", "why_tests_cant": "all behaviours of contact generation", "anchors": ["src/interpolation/rbprm-path-interpolation.cc:RbPrmInterpolation::Interpolate"]}
{"id": "C147", "title": "The foot sizes and the friction given by the user are those of the contacts", "statement": "The parameters DynamicPlanner/sizeFootX and sizeFootY are the full lengths of the feet: planner and optimisers alike give a contact of a node the four corners of the rectangle with these sides, centred in the contact point and along the direction of the root, and the contact point alone if one of the lengths is not positive (default); DynamicPlanner/friction (default 0.5) is the friction of the contacts and of the jumps, Kinodynamic/velocityBound bounds the velocity of a jump, and jumps are tried only if tryJump is set.", "quantifier": "every value of the parameters, ROMs in contact and direction of the root", "why_tests_cant": "all parameter values", "anchors": ["src/planner/dynamic-planner.cc:DynamicPlanner", "src/planner/oriented-path-optimizer.cc:OrientedPathOptimizer", "src/planner/random-shortcut-dynamic.cc:RandomShortcutDynamic", "src/planner/steering-method-parabola.cc:SteeringMethodParabola"]}
{"id": "C148", "title": "A planner created on a roadmap works on it", "statement": "DynamicPlanner::createWithRoadmap(problem, roadmap) gives a planner whose roadmap() is the given one; its steps keep what is in it.", "quantifier": "every roadmap and every number of steps", "why_tests_cant": "all roadmaps and histories", "anchors": ["src/planner/dynamic-planner.cc:createWithRoadmap", "include/hpp/rbprm/planner/dynamic-planner.hh:roadmap"]}
{"id": "C149", "title": "The contact surfaces of a node depend on its configuration only", "statement": "The contacts of a node are those of the ROMs that touch a surface of their affordances, each with the surface nearest to the reference position of the limb, whatever was validated before and whatever the random numbers drawn; computing them changes neither the answers of later validations nor the options of the validator.", "quantifier": "every history of validations, nodes and optimisations, every random stream", "why_tests_cant": "histories and random streams", "anchors": ["src/planner/dynamic-planner.cc:computeGIWC", "src/planner/oriented-path-optimizer.cc:steer", "src/planner/random-shortcut-dynamic.cc:steer", "src/rbprm-validation.cc:computeAllContacts"]}
{"id": "C150", "title": "Obstacles added to and removed from a validation", "statement": "After any sequence of addObstacle, removeObstacleFromJoint, randomnizeCollisionPairs, computeAllContacts and validations, a configuration is accepted iff no body of the trunk collides with an obstacle that was registered for it (at construction or added) and not removed since, the joint bounds hold, and every ROM of the filter touches one of its initial surfaces that was not removed, or is optional; an added obstacle never serves as contact surface, and removing an obstacle that is not registered does nothing.", "quantifier": "every history of operations, every configuration, filter and collision outcome", "why_tests_cant": "histories of arbitrary length", "anchors": ["src/rbprm-validation.cc:addObstacle", "src/rbprm-validation.cc:removeObstacleFromJoint", "src/rbprm-validation.cc:randomnizeCollisionPairs"]}
{"id": "C151", "title": "Motions between states keep their contacts", "statement": "When limbRRT, limbRRTFromPath, comRRT or comRRTFromPath returns a path, it goes through the configurations of the given states in order, and between two states every contact that both have is within 1 mm (and the corresponding angle, for surface contacts) of its place at every instant at which the path can be evaluated; the random configurations of a transition lie on the reference path between the two frames but for the limbs that move.", "quantifier": "every list of states, planner, optimiser and schedule of the parallel loop", "why_tests_cant": "all planners' outcomes, instants and thread schedules", "anchors": ["src/interpolation/limb-rrt.cc:limbRRT", "src/interpolation/limb-rrt.cc:limbRRTFromPath", "src/interpolation/com-rrt.cc:comRRT", "src/interpolation/com-rrt.cc:comRRTFromPath", "include/hpp/rbprm/interpolation/time-constraint-helper.inl:interpolateStatesFromPathGetter"]}
{"id": "C152", "title": "limbRRT and comRRT return when every transition can be solved", "statement": "If the planner solves all the transitions in some round, limbRRT returns a path; comRRT first computes a guide that keeps the contacts common to both states, follows the path of the centre of mass, and returns when the planner solves the transition; contacts that count as kept never prevent a transition from being solved.", "quantifier": "every pair of states, planner and schedule", "why_tests_cant": "termination for all inputs", "anchors": ["src/interpolation/limb-rrt.cc:limbRRT", "src/interpolation/com-rrt.cc:comRRT", "src/interpolation/com-rrt-shooter.cc:operator()"]}
{"id": "C153", "title": "The surface in which a ROM meets an affordance", "statement": "The intersection computed for a ROM in contact is made of points of the ROM that are, in the world, on the surface of the affordance object: seen from above inside of it, and nearer than 2e-5 to its plane; the normal is the unit normal of that surface and turns with the object, whatever the placements of the two objects and the order of the triangles of their meshes.", "quantifier": "every pair of meshes and placements", "why_tests_cant": "all meshes and placements", "anchors": ["src/planner/rbprm-node.cc:computeIntersectionSurface", "src/utils/algorithms.cc:GetModel", "src/utils/algorithms.cc:computePlanEquation", "src/utils/algorithms.cc:TriangleNormal", "src/utils/algorithms.cc:convertBVH", "src/utils/algorithms.cc:intersectPolygonePlane"]}
{"id": "C154", "title": "Clipping of polygons given by iterators", "statement": "compute2DIntersection on iterators returns, for all non-empty polygons, vertices inside the clipping polygon and inside the other one, and a polygon that is inside the clipping polygon unchanged.", "quantifier": "every pair of convex polygons", "why_tests_cant": "all polygons of any size", "anchors": ["src/utils/algorithms.cc:compute2DIntersection"]}
{"id": "C155", "title": "Centre of a planar polygon", "statement": "centerPlanar returns the point of the plane n.p + t = 0 on the vertical through the centroid of the polygon, whatever the direction in which the polygon turns; projectZ keeps the horizontal coordinates.", "quantifier": "every polygon and plane that is not vertical", "why_tests_cant": "all polygons", "anchors": ["src/utils/algorithms.cc:centerPlanar", "src/utils/algorithms.cc:projectZ"]}
{"id": "C156", "title": "Paths accepted by the dynamic path validation", "statement": "After any registrations, a path accepted by the dynamic path validation was tested at times at most one step apart from one end to the other, each tested configuration is accepted by every registered validation, and where the contacts differ from the initial ones its acceleration is admissible for its contacts; with a filter the same holds for the ROMs of the filter; the order of the registrations does not matter and no null pointer is used.", "quantifier": "every sequence of registrations, path, direction, step and earlier validations", "why_tests_cant": "histories, paths and steps of any size", "anchors": ["src/dynamic/dynamic-path-validation.cc:validate", "include/hpp/rbprm/dynamic/dynamic-path-validation.hh:addDynamicValidator", "src/rbprm-path-validation.cc:add"]}
{"id": "C157", "title": "The shooter pushes a colliding trunk out of the obstacle", "statement": "When the trunk is in collision during a shot, the shooter moves its root along the outward unit normal of the triangle in contact, in the world, by the penetration depth and 3 cm, so that a point at most as deep as reported is at least 3 cm outside afterwards, and goes on from there; without mesh the direction is the vertical.", "quantifier": "every obstacle, placement, triangle, depth and configuration", "why_tests_cant": "all meshes and placements", "anchors": ["src/rbprm-shooter.cc:normalFromTriangleContact", "src/rbprm-shooter.cc:impl_shoot"]}
{"id": "C158", "title": "The postural task pulls the joints towards the reference", "statement": "The postural task used in projections costs nothing exactly at the reference posture, with one weight per degree of freedom as given by the user (1 each if the user gave none), a degree of freedom of weight 0 does not count, and neither do the root and the extra degrees of freedom.", "quantifier": "every robot, weights and configuration", "why_tests_cant": "all dimensions, weights and configurations", "anchors": ["src/projection/projection.cc:CreatePosturalTaskConstraint", "src/rbprm-fullbody.cc:postureWeights"]}
{"id": "C159", "title": "Reports of the stop watch", "statement": "After any history, report_all of an active watch prints one line for each name ever started, in order, without exception; a line gives the minimum, average, maximum and total of the lapses in milliseconds and their number, with minimum <= average <= maximum; an inactive watch prints nothing and an unknown name throws.", "quantifier": "every history of calls", "why_tests_cant": "histories of any length", "anchors": ["src/utils/stop-watch.cc:report", "src/utils/stop-watch.cc:report_all"]}
{"id": "C160", "title": "Boxes of the octree of a database", "statement": "The boxes of a sample database are the cubes of the leaves of its octree, one per leaf under the identifier of the leaf; a sample is inside the box of its voxel and inside no other box.", "quantifier": "every octree, resolution and position", "why_tests_cant": "octrees of any size", "anchors": ["src/sampling/sample-db.cc:generateBoxesFromOctomap"]}
{"id": "C161", "title": "Every sample of a database can be a contact candidate", "statement": "Every sample of a database that was constructed is in a voxel of its octree, and a contact of an obstacle with this voxel makes it a candidate.", "quantifier": "every list of samples and resolution", "why_tests_cant": "all positions", "anchors": ["src/sampling/sample-db.cc:generateOctree", "src/sampling/sample-db.cc:getSamplesPerVoxel", "src/sampling/sample-db.cc:GetCandidates"]}
{"id": "C162", "title": "Copies of paths", "statement": "A copy of any path of the library (trajectory of the centre of mass, along a curve, under time dependent constraints, Bezier, jump, timed jump) has the same time range and the same value at every time; a copy with constraints obeys them.", "quantifier": "every path obtained by any history of creations, copies and extractions, every time, every constraint", "why_tests_cant": "all paths and times", "anchors": ["src/interpolation/com-trajectory.cc:ComTrajectory", "src/interpolation/polynom-trajectory.cc:PolynomTrajectory", "src/interpolation/time-constraint-path.cc:TimeConstraintPath", "src/interpolation/bezier-path.cc:BezierPath", "src/planner/parabola-path.cc:ParabolaPath", "src/planner/timed-parabola-path.cc:TimedParabolaPath", "include/hpp/rbprm/interpolation/time-constraint-path.hh:createCopy"]}
{"id": "C163", "title": "Duration of a jump", "statement": "The duration of a timed jump is that of the free fall, whichever way the jump is constructed: the horizontal distance divided by the horizontal speed of take-off.", "quantifier": "every pair of configurations, coefficients, velocities and contents of uninitialised memory", "why_tests_cant": "uninitialised memory; all jumps", "anchors": ["src/planner/timed-parabola-path.cc:TimedParabolaPath", "src/planner/timed-parabola-path.cc:computeTimedLength", "src/planner/parabola-path.cc:ParabolaPath"]}
{"id": "C164", "title": "ROMs recorded in a jump", "statement": "A jump made by the steering method records exactly the ROMs in contact with a surface at take-off and at landing, each once and in order, whatever was computed before; the reversed jump exchanges them, a copy or a part keeps them.", "quantifier": "every validator, pair of configurations, set of other validations and history of calls", "why_tests_cant": "all reports; state kept between calls", "anchors": ["src/planner/steering-method-parabola.cc:fillROMnames", "src/planner/steering-method-parabola.cc:compute_3D_path", "src/planner/parabola-path.cc:reverse"]}
{"id": "C165", "title": "The states of a contact plan", "statement": "Every state of a plan returned by Interpolate has complete contact data: a position, a normal and a rotation for exactly its contacts, all of them active limbs of the robot, as many as its counter says; without deep filtering and with a goal in contact with every limb a plan is always returned.", "quantifier": "every robot, obstacle set, list of configurations, solver answer, start and goal with complete data, with or without deep filtering", "why_tests_cant": "all answers of the solvers and all lengths of the plan", "anchors": ["src/interpolation/rbprm-path-interpolation.cc:Interpolate", "src/interpolation/rbprm-path-interpolation.cc:FilterStates", "src/contact_generation/algorithm.cc:ComputeContacts", "src/projection/projection.cc:projectStateToObstacle"]}
{"id": "C166", "title": "One contact change from a state of a plan to the next one", "statement": "From each state of the plan returned by Interpolate to the next one, at most one contact is released and at most one is placed (a moved contact counts as both), except where contact generation failed and repositioned the robot, which happens at most twenty times in a plan, and where the filter dropped states.", "quantifier": "every robot, obstacle set, list of configurations, solver answer, start and goal with complete contact data, without deep filtering", "why_tests_cant": "all lengths of the plan and all answers of contact generation", "anchors": ["src/interpolation/rbprm-path-interpolation.cc:Interpolate", "src/interpolation/rbprm-path-interpolation.cc:addGoalConfig", "src/interpolation/rbprm-path-interpolation.cc:FilterObsolete", "src/contact_generation/algorithm.cc:ComputeContacts", "src/contact_generation/contact_generation.cc:gen_contacts"]}
{"id": "C167", "title": "What the random draws depend on", "statement": "After a shooter or a full body has been created, the draws of the later calls depend only on the second of that creation, and are consecutive members of one sequence; a seed that the user chooses after the last creation determines all later draws, one chosen before has no effect, and objects created in the same second repeat the same draws.", "quantifier": "every generator, every history of seedings, creations and calls, every function that draws", "why_tests_cant": "all histories of the process", "anchors": ["src/rbprm-shooter.cc:RbPrmShooter::create", "src/sampling/heuristic.cc:HeuristicFactory::HeuristicFactory", "include/hpp/rbprm/rbprm-fullbody.hh:RbPrmFullBody::factory_"]}
{"id": "C168", "title": "What was checked of the states of a plan", "statement": "Each state of a plan that contact generation made, not by repositioning the robot in place, has at least two contacts, is in static equilibrium with at least the required robustness, comes from a configuration free of collision by releasing at most one contact and placing at most one, whose limb is free of collision, and is reachable from the state before if that is asked for; the other states are the start, the goal, states repositioned after a failure, moves of one limb to its place in the goal, and collision free states rebuilt by deep filtering.", "quantifier": "every robot, obstacle set, list of configurations, robustness threshold, solver answer, start and goal with complete contact data, with and without deep filtering", "why_tests_cant": "all lengths of the plan and all answers of the solvers", "anchors": ["src/contact_generation/algorithm.cc:ComputeContacts", "src/contact_generation/algorithm.cc:oneStep", "src/contact_generation/contact_generation.cc:gen_contacts", "src/contact_generation/contact_generation.cc:maintain_contacts", "src/interpolation/rbprm-path-interpolation.cc:Interpolate"]}
{"id": "C169", "title": "What was checked of the edges of a dynamic plan's roadmap", "statement": "After any number of steps of the dynamic planner with the kinodynamic steering method and the path validation of this library, every edge of the roadmap leads along its path from the configuration of its first node to that of its second one, configurations of it at most one step apart from end to end, both ends included, were tested and accepted, and it is the beginning of a path leaving its first node or the end of a path arriving at its second one, cut where the acceleration shortly after (before) a change is first (last) not admissible for that node, if the bounds of the acceleration were lowered for the node.", "quantifier": "every steering method of hpp-core that joins the given configurations, every validator, step, start roadmap, sequence of random configurations, nearest nodes and contacts, every number of steps", "why_tests_cant": "all sequences of random configurations and all answers of the validators", "anchors": ["src/planner/dynamic-planner.cc:DynamicPlanner::oneStep", "src/planner/rbprm-steering-kinodynamic.cc:SteeringMethodKinodynamic::impl_compute", "src/rbprm-path-validation.cc:RbPrmPathValidation::validate", "src/dynamic/dynamic-path-validation.cc:DynamicPathValidation::validate"]}
{"id": "C170", "title": "Where the contacts of a plan come from", "statement": "Each contact (position, normal, rotation) of the state returned by ComputeContacts is a contact of the previous state, unchanged, or was found: its limb was projected, from one of the samples proposed for it, onto the surface of that sample, is free of collision, and the recorded place is the one of the effector in the configuration found, the recorded normal the one of the surface. All contacts of an initial state were found, and each contact of a plan is one of the start, was found, or is one of the goal or comes from projecting the limb to its place in the goal.", "quantifier": "every robot, obstacle set, list of configurations, solver answer, start with complete contact data, and every outcome of contact generation", "why_tests_cant": "all answers of the solvers, all lengths of the plan, all orders of trials", "anchors": ["src/contact_generation/algorithm.cc:ComputeContacts", "src/contact_generation/contact_generation.cc:generate_contact", "src/contact_generation/contact_generation.cc:findValidCandidate", "src/interpolation/rbprm-path-interpolation.cc:Interpolate"]}
{"id": "C171", "title": "Contacts lie on the affordance objects", "statement": "With the sample databases, the projection and the affordance objects of the library, each contact placed by contact generation is one millimetre above a point of a triangle of one of the affordance objects given for its limb, along the unit normal of this triangle, which is the recorded normal; the normal of the effector is along it, and the triangle meets a voxel of the limb's octree which contains a sample of the limb.", "quantifier": "every robot, database indexed by its octree, set of affordance objects without flat triangles, solver that satisfies the constraints when it answers true, list of configurations", "why_tests_cant": "all triangles, samples and orientations, all lengths of the plan", "anchors": ["src/sampling/sample-db.cc:CollideOctree", "src/projection/projection.cc:projectSampleToObstacle", "src/projection/projection.cc:computeProjectionMatrix", "src/contact_generation/contact_generation.cc:generate_contact", "src/interpolation/rbprm-path-interpolation.cc:Interpolate"]}
{"id": "C172", "title": "The states of a plan are in equilibrium on their recorded contacts", "statement": "With IsStable as the test of equilibrium and a robustness threshold that is not negative, for each state of a plan that contact generation made, not by repositioning the robot in place, the linear-programming library has been given the support points around the recorded positions of exactly the contacts of that state (four corners for a surface contact, one for a point contact), their recorded normals, the contacts that grasp at the end, and the friction of the robot, and has answered for the centre of mass of the state's configuration that it is in equilibrium, with at least the required robustness if no contact grasps.", "quantifier": "every robot, library, list of configurations, threshold that is not negative, answers of the other solvers, start and goal with complete contact data", "why_tests_cant": "all states, contacts and answers of the library", "anchors": ["src/stability/stability.cc:IsStable", "src/stability/stability.cc:setupLibrary", "src/contact_generation/contact_generation.cc:findValidCandidate", "src/contact_generation/contact_generation.cc:gen_contacts", "src/interpolation/rbprm-path-interpolation.cc:Interpolate"]}
{"id": "C173", "title": "The rest of the robot stays in place while a limb is tried", "statement": "While the candidates of a limb are tried, with the postural task or not, the joints that are locked for each projection are exactly those that are not in the limb, at their values in the working state, wherever the projections and the tests of stability and reachability of the earlier candidates have left the shared device; the device agrees with the working state outside the limb whenever a candidate is placed; and every configuration that comes out, also of a failed projection, agrees with the working state at each joint that is not in the limb. Loading a sample of the limb changes no other coordinate.", "quantifier": "every tree of joints with different names, limb, list of candidates, projector that keeps the locks it is given, outcome of the validations, and final configuration of the tests", "why_tests_cant": "the device is shared by all functions: all histories of candidates", "anchors": ["src/projection/projection.cc:projectSampleToObstacle", "src/projection/projection.cc:computeProjectionMatrix", "src/projection/projection.cc:projectEffector", "src/tools.cc:LockJointRec", "src/sampling/sample.cc:Load", "src/contact_generation/contact_generation.cc:generate_contact"]}
{"id": "C174", "title": "The states of a plan are free of collision", "statement": "With the collision validations that AddLimb builds, each state of a plan that contact generation made, not by repositioning the robot in place, is free of collision as a whole (self-collisions, and every pair of a joint and an obstacle that the validation of the robot tests), although only the placed limb is tested after its projection; the only exception is the end of the limb that has just been placed, if the user disabled its collisions. So are the states in which limbs move to their places in the goal, and those rebuilt by deep filtering.", "quantifier": "every tree of joints, set of limbs and obstacles, collision predicate that depends on the placement of the joints, list of configurations, solver answers, start and goal with complete contact data", "why_tests_cant": "all configurations and all pairs of bodies", "anchors": ["src/rbprm-fullbody.cc:AddLimbPrivate", "include/hpp/rbprm/tools.hh:addLimbCollisionRec", "src/contact_generation/contact_generation.cc:maintain_contacts", "src/projection/projection.cc:projectEffector", "src/interpolation/rbprm-path-interpolation.cc:Interpolate"]}
{"id": "C175", "title": "The steps of a quasi-static plan can be made at rest", "statement": "If reachability is tested in quasi-static mode, for each state of a plan that contact generation made, not by repositioning the robot in place, there is a position of the centre of mass at which the robot stands, at rest, on the contacts that stay while one contact is released, and at which all limbs in contact, with the released one, can follow; and one, for the placed contact, at which it stands on the contacts that stay and all limbs, with the placed one, can follow.", "quantifier": "every robot, obstacle set, list of configurations, contact cone, kinematic constraints, solver whose answers satisfy the constraints, start and goal with complete contact data", "why_tests_cant": "all positions of the centre of mass and all answers of the solvers", "anchors": ["src/contact_generation/reachability.cc:isReachable", "src/contact_generation/reachability.cc:intersectionExist", "src/contact_generation/contact_generation.cc:maintain_contacts", "src/contact_generation/contact_generation.cc:generate_contact", "src/interpolation/rbprm-path-interpolation.cc:Interpolate"]}
{"id": "C176", "title": "The steps of a dynamic plan can be made in motion", "statement": "If reachability is tested and the plan is not quasi-static, for each state of a plan that contact generation made, not by repositioning the robot in place, a trajectory of the centre of mass was found from the state before to it, with their velocities, under the constraints of the contacts of both and of the state between them and with the timings of the table, or the step can be made at rest if that was to be tried.", "quantifier": "every robot, obstacle set, list of configurations, solver of trajectories, start and goal with complete contact data", "why_tests_cant": "all answers of the solvers, all timings, all lengths of the plan", "anchors": ["src/contact_generation/reachability.cc:isReachableDynamic", "src/contact_generation/reachability.cc:isReachableIntermediate", "src/contact_generation/contact_generation.cc:generate_contact", "src/contact_generation/algorithm.cc:ComputeContacts", "src/interpolation/rbprm-path-interpolation.cc:Interpolate"]}
{"id": "C177", "title": "A repositioning in place is checked, and plans are free of collision throughout", "statement": "When contact generation repositions the robot in place, the state it returns keeps contacts of the state before, as they were; limbs whose contacts were released are moved to postures of their databases free of collision; and if it succeeds, one contact was placed, with all checks of contact generation, equilibrium and reachability included. If the start and the goal are free of collision, so are all states of the plan, but for the ends of limbs whose collisions the user disabled.", "quantifier": "every robot, obstacle set, list of configurations, contact groups, solver, start and goal with complete contact data", "why_tests_cant": "all orders of release, all answers of the solvers and validations, all lengths of the plan", "anchors": ["src/contact_generation/contact_generation.cc:repositionContacts", "src/contact_generation/algorithm.cc:handleFailure", "src/contact_generation/algorithm.cc:ComputeContacts", "src/interpolation/rbprm-path-interpolation.cc:Interpolate"]}
{"id": "C178", "title": "Contacts are released only if they cannot be kept", "statement": "Contact generation releases a contact of the previous state, or repositions the robot in place, only if there is no way with all contacts: the robot cannot be moved to the given configuration with them, or it is not in equilibrium there and no free limb can be placed from there. It repositions the robot in place only if there is no way either with any set of contacts with one contact less, from the given configuration.", "quantifier": "every robot, obstacle set, previous state with complete contact data, configuration, threshold and mode", "why_tests_cant": "all sets of kept contacts and all attempts for all free limbs", "anchors": ["src/contact_generation/algorithm.cc:oneStep", "src/contact_generation/algorithm.cc:genContactFromOneMaintainCombinatorial", "src/contact_generation/contact_generation.cc:maintain_contacts", "src/contact_generation/contact_generation.cc:gen_contacts"]}
{"id": "C179", "title": "The initial state is checked", "statement": "The contacts of the state computed without a previous state were placed one limb after the other, in the order of the limbs, from the configuration given, each checked for collision; if this configuration is free of collision the state is, but for the ends of limbs whose collisions the user disabled; and the state is in equilibrium with the required robustness.", "quantifier": "every robot, obstacle set, configuration, contact groups and threshold", "why_tests_cant": "all orders and groups of limbs, all answers of the solvers and validations", "anchors": ["src/contact_generation/algorithm.cc:ComputeContacts", "src/contact_generation/algorithm.cc:ComputeStableContact", "src/contact_generation/contact_generation.cc:generate_contact"]}
{"id": "C180", "title": "Deep filtering invents no contact", "statement": "Whatever the filtering of a plan, each contact of each of its states is a contact of the start, was found by contact generation, or comes from the goal, or is such a contact placed again, with the same normal, by projecting the limb to its place; the normal of every contact of the filtered plan is the normal of a contact of the same limb before.", "quantifier": "every robot, plan, solver, start and goal with complete contact data, with and without deep filtering", "why_tests_cant": "all numbers of passes of the filter, all answers of the solvers", "anchors": ["src/interpolation/rbprm-path-interpolation.cc:FilterStates", "src/interpolation/rbprm-path-interpolation.cc:tryReplaceStates", "src/interpolation/rbprm-path-interpolation.cc:trySkipStates", "src/projection/projection.cc:projectStateToObstacle"]}
{"id": "C181", "title": "A contact placed again stays where it was", "statement": "When deep filtering places a limb again on the contact of another state of the plan, the sole of the limb touches the surface where it did, within one centimetre, and the effector is aligned with the normal.", "quantifier": "every robot, limb with a surface contact, contact, configuration", "why_tests_cant": "all positions, normals, orientations and offsets", "anchors": ["src/interpolation/rbprm-path-interpolation.cc:tryReplaceStates", "src/interpolation/rbprm-path-interpolation.cc:trySkipStates", "src/projection/projection.cc:projectStateToObstacle", "src/projection/projection.cc:computeProjectionMatrix"]}
{"id": "C182", "title": "Sample databases can be copied and destroyed", "statement": "Whatever databases a program creates, copies, assigns and destroys, the octree of each database in scope is allocated and no other octree is; each box belongs to a database in scope and is there; no box is deleted twice; when no database is in scope nothing is left.", "quantifier": "every sequence of creations, copies, assignments and destructions of sample databases, with any number of boxes", "why_tests_cant": "all lifetimes and interleavings; a double free need not crash a test", "anchors": ["src/sampling/sample-db.cc:~SampleDB", "src/sampling/sample-db.cc:generateBoxesFromOctomap", "include/hpp/rbprm/sampling/sample-db.hh:SampleDB"]}
{"id": "C183", "title": "The valid part that the validation of time constrained paths gives continues the tree of the planner", "statement": "TimeConstraintPathValidation::validate accepts a path only with the whole path as its valid part; the valid part of a rejected path is a part of it that begins at its start, or, if it is validated backwards, one that ends at its end.", "quantifier": "every time constrained path, both directions, every distance and every answer of the discretised validation", "why_tests_cant": "the valid part matters for all rejected paths, in both directions and for each reason of the rejection", "anchors": ["src/interpolation/time-constraint-path-validation.cc:validate"]}
{"id": "C184", "title": "The search of one step of contact generation is finite, with a known bound", "statement": "From a consistent state with n contacts, contact generation tries exactly as many states with contacts maintained as there are sets of at most maxBreaks contacts (one for a single contact), and for each of them as many candidates as there are sequences of at most maxCreations free limbs; ComputeContacts makes at most n + 1 rounds with at most one attempt per free limb.", "quantifier": "every consistent state, every robot, every bound on breaks and creations", "why_tests_cant": "combinatorial growth: no list of examples gives the count for all numbers of contacts", "anchors": ["src/contact_generation/contact_generation.cc:maintain_contacts_combinatorial", "src/contact_generation/contact_generation.cc:gen_contacts_combinatorial", "src/contact_generation/algorithm.cc:oneStep"]}
{"id": "C185", "title": "Contact generation is told the direction of the motion", "statement": "During an interpolation the direction given to contact generation, and by it to the heuristics, is the unit vector of the motion of the root: of the velocity of the configuration if it has one, of the displacement of the root otherwise.", "quantifier": "every configuration of a path and every previous state, with or without extra degrees of freedom", "why_tests_cant": "a wrong direction still gives contacts: a test sees plausible plans", "anchors": ["src/interpolation/rbprm-path-interpolation.cc:Interpolate", "src/sampling/heuristic.cc:forwardHeuristic"]}
{"id": "C186", "title": "The heuristics are told the dynamics and the placement of the robot", "statement": "The heuristics get the speed of the centre of mass and the acceleration that the configuration has among its extra degrees of freedom, zero acceleration without them, the contacts and the name of the limb, and the placement of the root of the state.", "quantifier": "every configuration, every number of extra degrees of freedom, every state", "why_tests_cant": "reading other entries of the configuration gives numbers of a plausible size, and does not fail", "anchors": ["src/interpolation/rbprm-path-interpolation.cc:Interpolate", "src/contact_generation/contact_generation.cc:gen_contacts", "src/contact_generation/contact_generation.cc:generate_contact", "src/contact_generation/algorithm.cc:ComputeStableContact"]}
{"id": "C187", "title": "The time in the path that contact generation is told is the time of the configuration", "statement": "Each call of contact generation during an interpolation gets the time at which the path has the given configuration, so that a fixed step heuristic aims at the foothold of the root at t_step later.", "quantifier": "every discretised path, every history of successes, failures and repositionings", "why_tests_cant": "the shift accumulates or disappears depending on the whole history of reports", "anchors": ["src/interpolation/rbprm-path-interpolation.cc:Interpolate", "include/hpp/rbprm/contact_generation/algorithm.hh:ComputeContacts", "src/sampling/heuristic.cc:fixedStepHeuristic"]}
{"id": "C188", "title": "The contact that is created is the best rated of those that can be used", "statement": "When contact generation creates a reachable contact for a limb, the sample it uses is one that projects without collision and in equilibrium, and no other candidate that does has a better value of the heuristic; if it creates none no candidate can be used. The candidates are the samples of the limb whose effector lies in a voxel that touches an affordance surface, and each is judged as if it were the only one.", "quantifier": "every robot, limb, sample database, heuristic, surfaces, state and configuration, with and without postural task", "why_tests_cant": "all numbers and orders of candidates; that a better one existed is not seen in a plan", "anchors": ["src/contact_generation/contact_generation.cc:findValidCandidate", "src/contact_generation/contact_generation.cc:CollideOctree", "src/contact_generation/contact_generation.cc:generate_contact", "src/sampling/sample-db.cc:GetCandidates"]}
{"id": "C189", "title": "Deep filtering leaves nothing to simplify", "statement": "In a plan returned by deep filtering no frame makes the contact changes of a successor that is directly reachable, no frame only breaks contacts that a directly reachable successor only creates again, each inner frame differs from the one before in its configuration and its contacts, and no frame can be replaced or skipped by the rules of the filter; filtering the plan again, deeply or not, returns it unchanged.", "quantifier": "every plan of any length, every answer of the solvers and of the reachability test", "why_tests_cant": "one simplification can make another one possible: only the fixed point for all plans shows that none is left", "anchors": ["src/interpolation/rbprm-path-interpolation.cc:FilterStates", "src/interpolation/rbprm-path-interpolation.cc:FilterStatesRec", "src/interpolation/rbprm-path-interpolation.cc:tryReplaceStates", "src/interpolation/rbprm-path-interpolation.cc:trySkipStates"]}
{"id": "C190", "title": "The trunk path that is accepted keeps the limbs in reach of their surfaces", "statement": "RbPrmPathValidation::validate accepts a path of the trunk iff at each step of the discretisation and at both ends the path has a configuration at which the trunk is free of collision and within its bounds and the range of motion of each limb of the filter reaches one of its surfaces; so each moment of the path is at most one step away from such a configuration. On a refused path the reported time is one at which this fails, and it holds at each step before. The answer does not depend on the validations made before.", "quantifier": "every path, step, direction, scene, filter and history of validations", "why_tests_cant": "all times of all paths; the validation reorders its own collision pairs at each call", "anchors": ["src/rbprm-path-validation.cc:validate", "src/rbprm-validation.cc:validate", "src/rbprm-rom-validation.cc:validate"]}
{"id": "C191", "title": "A configuration shot for the trunk is one at which the robot can stand", "statement": "When the shooter finds a configuration within its limits, the trunk there is free of collision, within its bounds, and the range of motion of each limb of the filter reaches one of its surfaces; a path validation with the same filter accepts this configuration.", "quantifier": "every scene, filter, history of the validator and sequence of random numbers", "why_tests_cant": "all sequences of random numbers; the configuration is moved along the normal and turned several times before it is accepted", "anchors": ["src/rbprm-shooter.cc:impl_shoot", "src/rbprm-validation.cc:validate"]}
{"id": "C192", "title": "The friction cone of a jump, restricted to the vertical plane of the jump", "statement": "fiveth_constraint returns the half aperture of the section of the friction cone by the vertical plane of the jump: the forces of this plane that the contact can transmit are exactly those at most this angle away from the middle of the section; it refuses when there is no such force.", "quantifier": "every unit normal, friction coefficient and heading", "why_tests_cant": "real valued geometry: all cones and planes, with the degenerate positions of the plane", "anchors": ["src/steering-method/steering-method-parabola.cc:fiveth_constraint"]}
{"id": "C193", "title": "A random jump is a parabola within the limits of the robot", "statement": "compute_random_3D_path draws an angle in the interval of the friction cone, a speed up to the limit, and returns a path that starts at the given configuration with this speed and angle, follows the parabola of gravity, ends on it, and stays below the height limit.", "quantifier": "every configuration, target, limits and sequence of random numbers", "why_tests_cant": "all random numbers and members; that a member has no value set is invisible in a run that happens to find a plausible one", "anchors": ["src/steering-method/steering-method-parabola.cc:compute_random_3D_path"]}
{"id": "C194", "title": "The paths that steer the motion between two states respect the constraints", "statement": "TimeConstraintSteering links two configurations exactly if both respect the constraints, where the constraints whose value is not prescribed keep that of the first configuration; the path goes from one to the other, lasts their distance, its time is affine, and each of its points where the projection succeeds respects the constraints for its time. Two configurations are linked in both directions or in none.", "quantifier": "every set of constraints and projector, every pair of configurations, every time of the path", "why_tests_cant": "all constraints and times; the right hand sides are changed by each evaluation", "anchors": ["include/hpp/rbprm/interpolation/time-constraint-steering.hh:impl_compute", "src/interpolation/time-constraint-path.cc:checkPath", "src/interpolation/time-constraint-path.cc:impl_compute"]}
{"id": "C195", "title": "Jumps take off and land within the friction cones of their contacts", "statement": "The impulses of the take-off and of the landing of a jump that the parabola steering method returns are in the friction cones of the two contacts; third_constraint bounds the take-off angle such that the direction of arrival is in the given interval; the half aperture of fiveth_constraint tells which take-off angles and directions of arrival are in the cone.", "quantifier": "every pair of configurations, bounds of speed, contact normals and friction coefficients", "why_tests_cant": "all jumps and all cones; an infeasible jump is valid for every test of collision", "anchors": ["src/planner/steering-method-parabola.cc:compute_3D_path", "src/planner/steering-method-parabola.cc:third_constraint", "src/planner/steering-method-parabola.cc:fiveth_constraint"]}
{"id": "C196", "title": "Motions between states keep their contacts whatever the planner does with the paths of the steering method", "statement": "For a planner and optimisers that only put together paths of TimeConstraintSteering and parts of them, each motion that limbRRT, limbRRTFromPath and comRRTFromPath return goes through all the given states and keeps every contact that two consecutive states share within 1 mm of its place wherever the motion can be evaluated (5 cm for comRRT).", "quantifier": "every robot, list of states, reference path, projector that is right when it reports success, planner and optimisers that assemble such paths, and schedule of the threads", "why_tests_cant": "all trees of all planners, and all points of the paths; a contact that slips between two samples of a path is not seen", "anchors": ["include/hpp/rbprm/interpolation/time-constraint-steering.hh:impl_compute", "src/interpolation/time-constraint-path.cc:extract", "src/interpolation/limb-rrt.cc:limbRRT", "include/hpp/rbprm/interpolation/time-constraint-helper.inl:interpolateStates"]}
{"id": "C197", "title": "The whole-body motion of effectorRRT follows the trajectory it announces", "statement": "When effectorRRT returns, the motion leads from the first state to the second, has configurations of the size of the robot unless keepExtraDof is set, and wherever it can be evaluated the contacts that both states share, the centre of mass and the effector are within 1 mm of their references at one fraction of the time; the reference of the effector is the path added to the problem, which begins and ends at rest at its positions in the two states. If no reference can be followed, the motion of comRRT is returned.", "quantifier": "every robot, pair of states, references, sound planners for comRRT and each attempt, and schedules of their threads", "why_tests_cant": "all points of all motions and all histories of attempts; the constraints are built in one place, the references in another", "anchors": ["src/interpolation/effector-rrt.cc:effectorRRTFromPath", "src/interpolation/effector-rrt.cc:SetEffectorRRTConstraints", "include/hpp/rbprm/interpolation/interpolation-constraints.hh:CreateEffectorConstraint"]}
{"id": "C198", "title": "Time never goes back along the motions between states", "statement": "For planners that keep only paths whose time does not decrease, the extra degree of freedom of a motion returned by comRRT is a clock: it begins at 0, ends at 1, stays in between and never goes back, within a path and from one to the next; along a motion of effectorRRT the contacts, the centre of mass and the effector follow their references at the fraction shown by such a clock, whether the extra degree of freedom is kept or not.", "quantifier": "every pair of states, reference, projector, distance, planner and optimisers that assemble forward paths, and schedule of the threads", "why_tests_cant": "all trees and all points of the paths; a motion that goes back for a moment passes through the right configurations", "anchors": ["src/interpolation/time-constraint-path-validation.cc:validate", "include/hpp/rbprm/interpolation/time-constraint-steering.hh:impl_compute", "src/interpolation/time-constraint-path.cc:impl_compute", "src/interpolation/time-constraint-path.cc:extract", "src/interpolation/com-rrt.cc:comRRT", "src/interpolation/effector-rrt.cc:effectorRRTFromPath"]}
{"id": "C199", "title": "The validation of time constraint paths keeps planners from going back in time", "statement": "What TimeConstraintPathValidation leaves of a path of the steering method, validated from either end, has a time that does not decrease. So if planners and optimisers put together only such paths and forward parts of them, the extra degree of freedom of a motion of comRRT, and the fraction at which a motion of effectorRRT follows its references, is a clock from 0 to 1 that never goes back.", "quantifier": "every pair of configurations, set of constraints, projector, answer of the discretised validation, direction of validation; then every pair of states, reference, planner and optimisers, and schedule of the threads", "why_tests_cant": "all rejected and accepted paths: the valid part of a rejected path is seldom looked at", "anchors": ["src/interpolation/time-constraint-path-validation.cc:validate", "src/interpolation/time-constraint-path.cc:extract", "include/hpp/rbprm/interpolation/time-constraint-steering.hh:impl_compute", "src/interpolation/com-rrt.cc:comRRT", "src/interpolation/effector-rrt.cc:effectorRRTFromPath"]}
{"id": "C200", "title": "Counters of the profiler", "statement": "report_count prints one line for each event that was counted, in the order of the names, with the sum of what add_to_count has added to it, and reset_all sets the profiler back, so that the report of a planning is about this planning. Counting does not disturb the measures. Each call of generate_contact increments exactly one counter, that of its status; when equilibrium is required and unreachable contacts are refused, 'reachable contact' is the number of successful calls.", "quantifier": "every history of calls of the profiler, every sequence of calls of generate_contact with any environment", "why_tests_cant": "all histories; the profiler is a global object and its counters are only seen in a log file", "anchors": ["include/hpp/rbprm/rbprm-profiler.hh:add_to_count", "include/hpp/rbprm/rbprm-profiler.hh:report_count", "src/rbprm-profiler.cc:getRbPrmProfiler", "src/contact_generation/contact_generation.cc:generate_contact", "src/interpolation/rbprm-path-interpolation.cc:Interpolate"]}
