# Formal model of hpp-rbprm in Lean 4 — design

## 1. Approach

The C++ of `/repo` is read as text and transcribed, function by function, into small total
Lean functions.  Every definition cites the file and lines it models and states the
simplifications.  Properties (`properties.jsonl`) are stated in `Verif/Props/*.lean`,
apart from the models (`Verif/Model/*.lean`) and from the helper lemmas (`Verif/Lemmas/*.lean`).
Small, model independent specifications used by the statements are in `Verif/Spec/*.lean` or next
to the theorem.

* **Containers.** `std::map<K,V>` is an association list kept sorted by key (`AMap`), so iteration
  order is the C++ one.  `std::queue`/`std::vector`/`std::set`/`std::multiset` are lists.
* **Mutation.** A function that mutates through a reference returns the new value.
* **External code** (projection solvers, collision checks, LP solvers, FCL/Pinocchio kinematics,
  random numbers) is a parameter of the model (an *oracle*); theorems quantify over all oracles.
  Whatever is assumed of an oracle is an explicit hypothesis of the theorem.
* **Numbers.** `double` is an exact ordered field (`ℚ`, `ℝ`, or any linear ordered field).  Rounding,
  NaN and infinities are outside the model except where stated (division by zero is then a
  separate outcome).  A norm comparison `‖v‖ > c` (c ≥ 0) is modelled by `v·v > c²`.
* **Undefined behaviour / exceptions** are distinct outcomes (`Option`/`Except`/inductive result).
* **Loops** are structural or well-founded recursion; loops whose termination is itself a property
  take fuel and the theorem says how much fuel suffices.

When the code violates a property the full statement is kept in `properties.jsonl`, a theorem named
`…_violated`/`…_counterexample` exhibits a concrete failing case on the model, and
a theorem with suffix `_partial` proves the part that does hold (with the missing part named).

## 2. Trusted base

* Lean 4.33.0 kernel (and the Mathlib modules imported, themselves kernel checked).
* Axioms: at most `propext`, `Classical.choice`, `Quot.sound`.  No axiom is added; `native_decide`,
  `bv_decide` are not used.
* The faithfulness of the transcription (by reading; the code is neither built nor run).
* For each oracle the claim that the C++ function it stands for is a function of the listed arguments
  (no hidden state), or, where hidden state matters, that the oracle stream abstraction covers it.

## 3. Plan per property

| Id | Modelled | Proof |
|----|----------|-------|
| C01–C10 | `rbprm-state.cc` in full (State, removal, creations/breaks/variations, printing loop, effectorDistance) | induction on lists/histories |
| C11–C13 | `maintain_contacts_combinatorial`, `stringCombinatorial`, `sortLimbs` | induction on depth |
| C14 | `getAffObjectsForLimb` with strings as character lists | case analysis; counterexample for substring match |
| C15–C20 | `maintain_contacts`, `genColFree`, `maintain_contacts_stability_rec`, `findValidCandidate`, `generate_contact`, `gen_contacts`, `repositionContacts` over oracles | loop invariants |
| C21–C22 | `algorithm.cc` | loop invariants |
| C23–C28 | `rbprm-path-interpolation.cc` | loop invariants, measures |
| C29–C34, C74, C75 | `sample-db.cc`, `sample.cc` (`Model/SampleDB`, `Model/IO`, `Model/Candidates`) | permutation lemmas, round trip |
| C35 | `tools.cc` text io | list induction |
| C36–C37, C76–C77 | registries of `rbprm-fullbody.cc` | history invariants |
| C38–C40, C78, C79 | `rbprm-validation.cc`, `rbprm-rom-validation.cc`; `core::CollisionValidation::validate` by its contract (first colliding pair), without parameterised pairs | counting, permutations, history invariants |
| C41, C80 | `rbprm-path-validation.cc`, `dynamic-path-validation.cc` | well-founded loop over ordered field |
| C42–C45, C81, C82 | `rbprm-shooter.cc` in full (uniform shooter, validator and random numbers are oracles with state) | ordered field arithmetic, log of validations |
| C46, C83, C91 | `support.cc` in full (`Model/Support`) | winding number by list induction; gift wrapping correctness against Mathlib's `convexHull`; with aligned points (`Props/HullAligned`) the walk stays on the border, never stops strictly between the first two points, always takes the first point at a position, and comes back because the lowest left-most point of any cycle leads to the start |
| C47, C84 | `projection.cc` triangle functions (`Model/Triangle`) | ordered field arithmetic, convexity |
| C48 | `stability.cc` (`IsStable`, `setupLibrary`, contact points); the centroidal-dynamics library is an oracle, the dead `_3_DOF` branch of `computeRectangleContact` is not modelled | case analysis, list lemmas |
| C49, C50, C85–C90 | `utils/algorithms.cc` (`Model/Geom`), without the unused `centerPlanar` | ordered field arithmetic, list induction, potential function for termination |
| C51–C53, C92–C97 | `kinematics_constraints.cc`, `reachability.cc` in full (the QP and trajectory solvers and the polytope of the contact cone are oracles; `QHULL`, `STAT_TIMINGS`, `FULL_TIME_SAMPLING` are 0) | linear algebra over 3-vectors; case analysis; list lemmas |
| C54, C115 | `random-shortcut-dynamic.cc`, `oriented-path-optimizer.cc` (`Model/Optimise`): a path vector is the list of its elements; evaluation, extraction, steering, validation are oracles that may depend on the iteration; outcomes exception / null pointer / no termination are explicit | loop invariants, termination measure on the length |
| C55, C116, C57 | `rbprm-steering-kinodynamic.cc`, `dynamic-validation.cc` (`Model/Dynamic`): accelerations along a path and the linear programs are oracles | ordered field arithmetic; invariant over histories of calls |
| C56 | `dynamic-planner.cc` (`Model/Planner`): nodes are identified with configurations; nearest, extension, validation, shooter are oracles | invariant over histories |
| C58–C61, C119 | `time-constraint-path.cc`, `com-trajectory.cc`, `polynom-trajectory.cc`, `bezier-path.cc`, `time-constraint-path-validation.cc`, `time-constraint-helper.inl` (`Model/Paths`): the projector of the constraints, the geodesic interpolation of the joints, the discretised validation and the planner of a pair of states are oracles; a schedule of the parallel loop is an arbitrary permutation of the writes of its iterations; division by 0, null pointer and array overflow are explicit outcomes | ordered field arithmetic; commutation of independent writes, induction on rounds |
| C120–C123 | `time-constraint-shooter.cc`, `limb-rrt-shooter.cc`, `com-rrt-shooter.cc`, `interpolation-constraints.{hh,cc}`, `limb-rrt.cc`, `com-rrt.cc`, `SetEffectorRRTConstraints`, sizes of `time-constraint-helper.inl` (`Model/Interp`): a constraint of the projector is the equation it stands for, solved exactly; kinematics are functions of the configuration; `CreatePosturalTaskConstraint` and the disabled orientation constraint are not modelled | equivalence between accepted configurations and the contacts of the states; list induction |
| C124–C127 | `effector-rrt.cc` (`Model/Effector`), without `getWayPoints`, `splineFromEffectorTraj`, `Is2d`, `IsLine`, `genHeight`, which nothing calls: curves are polynomials; the functions of bezier-com-traj are oracles with the contract `Contract`; the interpolation along a reference returns, throws or never ends | Taylor expansion of quartics; loop invariants; Archimedean termination |
| C128–C130 | functions on the tree of joints (`Model/Joints`): `LockFromRoot`, `LockJointRec`, `addLimbCollisionRec`, `AddLimbPrivate`, `DisableUnNecessaryCollisions`, `GetEffector`; a validation is the list of its (joint, obstacle) pairs, pairs of bodies of the robot are not modelled | induction on nested trees |
| C131–C134 | `projection.cc` (`Model/Projection`) and `GetRotationMatrix`, over ℝ: a constraint is the equation it stands for; the projector is an oracle that satisfies all constraints when it answers true (`Robot.Exact`); the postural task is optional and unconstrained; of the SVD branch of `setFromTwoVectors` (opposite vectors) the axis is an oracle: a unit vector orthogonal to both, the rest is modelled; not modelled: the weights of the postural task, statistics | exact equivalence between contact constraints and kept contacts; quaternion identities; consistency invariant of states |
| C135, C136 | rotation matrices and quaternions of `tools.cc` (`Model/Tools`) over ℝ, memory content as a parameter; quaternions in any real inner product space | Rodrigues' formula; Mathlib's unoriented angles |
| C137–C140 | `rbprm-device.cc`, frames of `rbprm-limb.cc`, `referenceConfig`, positions of `sample.cc`, vertices reported by `GetCandidates` (`Model/Device`) over ℝ: a device is its current configuration and the one its transforms were computed for; the dangling reference of `GetEffectorTransform` is taken as valid | rigid transforms; induction over histories of calls |
| C141, C142 | configuration, transforms and flag that calls leave in the robot; `ComputeCentroidalCone` (`Model/Restore`). A saved configuration is a copy or a view (the types are declared in hpp-pinocchio, not in /repo): both are treated; what called functions do to the robot is a parameter | equations over arbitrary functions of the robot; the library that computes the cone is a parameter |
| C143 | the tables filled by the constructors of the two factories (`Model/Factories`); a heuristic is a function of the random number it draws | evaluation of the maps at the literal names, C77 for histories |
| C144, C145 | `isReachableDynamic` (verdicts) and the target of `isReachable` (`Model/Reachability`, `Props/ReachabilityMore`) | case analysis over the guards; induction over the contacts; the cost that is given to the solver is modelled: with a right solver the answer is the nearest point; solver and cones are parameters |
| C146 | the main loop of `Interpolate` (`Model/Interpolation`, `Props/InterpolationAbort`) | the sequence of calls as an inductive relation; induction over the run with the two counters |
| C147, C148, C149 | the constructors of the planner, of the two optimisers and of the parabola steering method, `createWithRoadmap`, `computeGIWC`, the contacts of `steer` (`Model/Setup`) | composition with the node matrices (C65, C113); invariance of the ROMs up to order and flags over histories, uniqueness of the nearest surface |
| C150 | `addObstacle`, `removeObstacleFromJoint` over the operations of the validator (`Model/Obstacles`); `core::ObstacleUser` by contract | induction over the history; the watched pairs are specified from the history alone |
| C151, C152 | `limbRRT`, `limbRRTFromPath`, `comRRT`, `comRRTFromPath`, the path getters and the tasks given to the planner (`Model/RRT`), on top of `Model/Interp` and `Model/Paths`; BiRRT, shortcuts and projector by contract (errors compared to the square of the threshold) | composition with the parallel loop (C61), the constraints (C121) and the shooter (C120) |
| C153, C154, C155 | meshes (vertices, index triples) and placements, `GetModel`, `computePlanEquation`, `convertBVH`, the whole of `computeIntersectionSurface`, the iterator version of `compute2DIntersection`, `centerPlanar`, `projectZ` (`Model/Surfaces`); Eigen's `normalize` by contract | vector algebra (Gram determinants) for rigid placements, composition with C86, C88, C114; induction over the clipping edges |
| C156 | registration with `RbPrmPathValidation::add` and `addDynamicValidator`, the conjunction of the registered validations, `DynamicPathValidation::validate` with and without filter (`Model/DynamicPath`); hpp-core's discretised validation by contract (same loop as C41) | induction over registrations; composition of C41 and C57; invariant for definedness |
| C157, C158, C159 | `normalFromTriangleContact` and the displacement of the shooter, `CreatePosturalTaskConstraint` and `postureWeights`, `report` and `report_all` (`Model/Misc`); Eigen's `normalized`, hpp-constraints' `ConfigurationConstraint` by contract | vector algebra over ℝ; induction over weights, over histories of the watch (with C63) |
| C160, C161 | `generateOctree` with the conversion to float, `search`, `generateBoxesFromOctomap` (`Model/Octree`); octomap as a grid of cells, no pruning of equal neighbours | floor arithmetic, induction over the leaves; composition with C29, C33 |
| C162, C163 | copy constructors, `createCopy` and `copy` of all path classes, with the base class part; constructors and `extract` of `TimedParabolaPath` (`Model/Copies`); uninitialised memory is an argument | induction over the histories of a path; arithmetic |
| C164 | `fillROMnames`, the name members of the steering method and of jumps (`Model/RomNames`), on the validator of `Model/Validation` | induction over the registered validations; invariance of the validator (C149) |
| C165 | `Interpolate` as a whole: `Model/Interpolation` with `compute` = `ComputeContacts` (`Model/Algorithm`) and the projections of `Model/Projection` | invariant of the loop, of the goal states and of the filters; composition of C21, C24, C25, C27, C28, C70, C71, C132 |
| C166 | the same composition as C165; `Released`, `Gained`, `OneChange` compare the contact positions of two states | the candidates of a contact generation have lost at most one contact and at most one is added (C19, C20); induction over the growth of the list (C24), the moves to the goal (C28), and the filter (C27); two library runs for the violations |
| C167 | the process-wide generator with its reseedings (`Model/Random`); functions that draw are arbitrary programs | a creation forgets the state; induction over the calls and over programs |
| C168 | the same composition; `PlacedContact`, `Checked` say which answers of the oracles were asked | analysis of `gen_contacts` with one creation, the candidates of `maintain_contacts` keep a contact (C11), the loop of `oneStep` (C21), growth of the plan (C24), filter and goal (C27, C28) |
| C169 | the planner's environment is the steering method (`Model/Dynamic`) and the path validation (`Model/PathValidation`); paths are intervals of hpp-core's steered paths | the contract of C56 is derived from C41 and C55; loop invariant of the planner |
| C170 | `generate_contact` with its retries, `gen_contacts`, `ComputeContacts`, `Interpolate` on the environment of oracles (`Model/ContactGen`, `Model/Algorithm`, `Model/Interpolation`) | `Found` names the answers of the oracles; invariant "every contact satisfies P" through all steps, growth (C24), filter (C27), goal (C28); one run for the violation |
| C171 | the oracles for candidates and projection are realised by `CollideOctree` (`Model/SampleDB`) and `projectSampleToObstacle` (`Model/Projection`) | composition of C33, C131, C36 (closest point of a triangle) and C170 |
| C172 | the oracle for the robustness is realised by `IsStable` (`Model/Stability`) | composition of C48 and C168 |
| C173 | `Model/Locked`: the loop on the candidates with the current configuration of the device as a state; locks, loaded and projected configurations, where the tests leave the device | invariant: the device and the configuration agree with the working state outside the limb |
| C174 | the validations are realised by the pairs of `Model/Joints`; a collision predicate that depends on the coordinates of the joints above | composition of C129, C173 and C168 |
| C175 | the oracle for reachability is realised by `isReachable` (`Model/Reachability`) | composition of C51 (what a positive answer means) and C168 |
| C176 | the oracle for dynamic reachability is realised by `isReachableDynamic` (`Model/Reachability`) | composition of C52, C144 and C168 |
| C177 | `repositionContacts` on the environment of oracles, with the bodies of C174 for the collisions | induction over the loop of the repositioning; composition with C174 for whole plans |
| C178 | the same environment; `NoWay` says what was tried and refused | the combinatorial lists (C11, C12), each failed attempt consumes a part of the queue (C15, C17, C21) |
| C179 | `ComputeContacts` without previous state (`Model/Algorithm`) | `PlacedInTurn` retraces the loop over the limbs; invariants for collisions and equilibrium |
| C180 | `FilterStates` with `deep` (`Model/Interpolation`), the projections by contract `MovesOnly`, proved of `Model/Projection` | invariant "every contact satisfies P" through all passes, from C27_replaced and C27_skipped; induction on the passes |
| C181 | the target of `tryReplaceStates`, `trySkipStates` composed with `projectStateToObstacle` (`Model/Projection`) over ℝ | exact displacement of the sole; a concrete robot on a wall for the violation |
| C182 | `Model/Ownership`: the members of `SampleDB` that hold memory, allocation counters of boxes and of the octree; creation, copy, assignment, destruction as operations on a store | invariant by induction on the program (reference counts = number of users; boxes owned once); concrete programs for the violations |
| C183 | `Model/ValidPart`: all that `TimeConstraintPathValidation::validate` writes; the discretised validation is an oracle with the contract in question | cases; the extraction of C60 for the violation |
| C184 | the combinatorial lists and `oneStep` (`Model/Combinatorics`, `Model/Algorithm`) | a list without repetition and with the same members (C11, C12) has the same length as the list of all subsets/sequences; induction on the rounds |
| C185, C186 | `Model/Motion`: the direction, acceleration and `HeuristicParam` assembled from lists of numbers; composed with `Model/Heuristic` | index arithmetic on lists; induction on the iterations; the rotation matrix of a quaternion |
| C187 | the calls of the loop of `Interpolate` (`callsOf` retraces `mainLoop`) composed with the sampling (C23) and with `fixedStep` | the loop invariant of C24; induction for the loop that always succeeds |
| C188 | `generateContact` composed with `collideOctree` (`Model/ContactGen`, `Model/SampleDB`) | the attempts are the map of the attempts of single candidates (induction: each loads the whole limb), sorted by value (C33) |
| C189 | the filters of `Model/Interpolation` | a pass that keeps the length kept every frame: induction on each filter; last iteration of the loop (C27) |
| C190 | `PathValidation.validate` with `Validation.validate` as its configuration validation, the validator being the state | the answers do not depend on the history (C79) and are those of C39; induction on the loop with this invariant |
| C191 | the shooter (C43) with `Validation.validate` as its validation, the validator being the state | the loop of the shooter ends in success only after an accepted validation (C39, C79); composed with C190 |
| C192 | `JumpCone.fifthConstraint` (`fiveth_constraint`), reals | a vector of the plane is in the cone iff a binary quadratic form is nonnegative; its roots are the sides of the sector; trigonometry of the angle between them |
| C193 | `Parabola.randomJump` (`compute_random_3D_path`), with the members that nothing sets as arbitrary parameters | direct computation with the coefficients of C55; counterexamples for each uninitialised member |
| C194 | `Paths.steer` (`TimeConstraintSteering::impl_compute`), constraints with given, stored and timed right hand sides; the projector by its contract | case analysis on the kind of right hand side, with `checkPath` and `impl_compute` of C58 |
| C195 | `Parabola.steer` (C117), `Parabola.thirdConstraint`, `JumpCone.fifthConstraint` (C192) | the sides of the section are its unit vectors with the smallest component along the normal, so that the aperture determines the norm of the normal in the plane; on flat ground the product of the roots of the speed constraint is 1 |
| C196 | `RRT.taskSet` (the constraints of a task as a set of the steering method), `RRT.Built` (paths of `Paths.steer` and their extracted parts), `RRT.limbRRT` … (C151) | induction on how a path was built gives the contract of C151 for a planner whose optimisers are restricted to assembled solutions; on those it runs like the given one |
| C197 | `Effector.effectorMotion` = `comRRT` (`Model/RRT`) followed by `effectorRRT` (`Model/Effector`), whose attempts are run by the planner of `Model/RRT` on the constraints of `SetEffectorRRTConstraints` | each squared error is at most the sum; composition with C61, C124, C126, C151; a run of a robot that follows its reference exactly |
| C198 | `RRT.Forward` (paths of `Paths.steer` with non-decreasing time, and their forward parts), `RRT.comRRT`, `Effector.effectorMotion` | induction on how a path is built: its time is affine; the times at the joints of a sequence are ordered; a planner of the straight path |
| C199 | `RRT.Validated` (the valid part that `Paths.validatePart` gives of paths of `Paths.steer`, and forward parts), `RRT.comRRT`, `Effector.effectorMotion` | cases of the validation: a rejected path leaves a part without duration, an accepted one has non-decreasing time; then as C198 |
| C200 | `rbprm-profiler.{hh,cc}` (`Model/Profiler`) on the stop watch of `Model/Stopwatch`; `generate_contact` with `PROFILE` | induction on the history, for the map of the counters; the event determines the status |
| C62, C117, C118 | parabola path, timed parabola path, parabola steering method over ℝ; NaN excluded by hypotheses on the horizontal distance; path validation is an oracle | trigonometric identities, quadratic inequalities, concavity |
| C63, C98 | `stop-watch.cc` (`Model/Stopwatch`), without the reports | simulation of a log of lapses, history induction |
| C64, C99–C104 | `analysis.cc` (`Model/Analysis`); Eigen's SVD and the collision checker are oracles | real arithmetic, Gram determinant, list induction |
| C105–C109 | `heuristic-tools.cc` in full (`Model/HeuristicTools`) over ℝ with NaN as `none` | planar geometry against Mathlib's `convexHull`; group invariants |
| C110–C112 | `heuristic.cc` in full (`Model/Heuristic`); random numbers are arguments, a path is the transform of the root along it | fuelled loops with termination proof, real arithmetic |
| C65, C113, C114 | `rbprm-node.cc` (`Model/Node`): matrices with sizes, a block out of bounds is undefined; friction rays and rectangles over ℝ; choice of the contact surface, the distance of a surface being any partial function | block invariant over the fold; real arithmetic; minimum of a fold |

Not modelled: `src/planner/parabola-planner.cc`, which is not compiled (commented out in CMakeLists.txt); the kinematics of the robot itself (it is a parameter: a function from configurations to
placements), file system errors, locale of the streams. The current configuration of the device is not part of the
contact-generation model; what calls leave in the device is in `Model/Restore` (C141).

Properties that no model of this kind can express: floating point rounding, wall-clock performance,
data races inside the third-party libraries used by the OpenMP loop.  Nothing in the list is declared
not applicable for these reasons; the affected statements are about exact arithmetic and about the
loop's own writes.
