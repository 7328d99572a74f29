# Verification design for Simu (2D rigid body engine)

The code under study is `/repo` (C++20, header heavy). The model is in
`lean/Verif/Model/*`, small independent specifications are in `lean/Verif/Spec/*`,
helper lemmas in `lean/Verif/Lemmas/*` and the property theorems (one file per group,
each theorem next to an `example` meeting its hypotheses) in `lean/Verif/Props/*`.

## 1. Trusted base

* Lean 4.33.0 kernel. Axioms allowed: `propext`, `Classical.choice`, `Quot.sound`.
  `lean/Verif/Audit.lean` prints the axioms of the property theorems.
* The reading of the C++ source: each definition of `Model/` cites file and lines.
* **Arithmetic.** `float` is replaced by an arbitrary linearly ordered field `K`
  (`ℚ` in executable examples) or by `ℝ` where square roots or trigonometry occur. Rounding,
  overflow to infinity, NaN and signed zero are *not* modelled, except in the places
  listed below where we go further:
  - structural results on the R-tree (contents, bounds) are proved for an arbitrary
    cost function and arbitrary "goes left" decisions, so they do not depend on
    rounding of areas/centres;
  - a binary32 round-to-nearest-even function is modelled separately to exhibit
    rounding disagreements as concrete witnesses.
* **Integers.** `std::size_t`/`Uint32`/`Int32` counters are `Nat`/`Int` with stated
  no-overflow hypotheses, except the 16 bit vertex indices of the renderer
  (`UInt16`-style wrap is modelled) and the byte-size product of the allocator.
* **Undefined behaviour / exceptions.** C++ UB (null dereference, use of a dangling
  node, reading an erased list node, calling `value()` on an empty optional is an
  exception) is a distinct outcome of the model (`Outcome.ub`), failed `SIMU_ASSERT`
  is `Outcome.throw`. (SIMU_ASSERT throws `simu::Exception` in every build type.)
* **Standard library.** `std::vector/list/unordered_map` are modelled by lists and
  association lists, `std::align` by its specification, `std::priority_queue` by
  extraction of a minimal element, `operator new` by an arbitrary fresh, disjoint block.
* **Callbacks.** User callbacks (`preStep`, `onCollision`, ...) are modelled as pure
  observers unless said otherwise; their call sequences are recorded.

### Not modelled
OpenGL/GLFW/ImGui calls, shader code, `Random.hpp`, the demo programs, timing
(`std::chrono`), `FloatingPointExceptions.hpp`, printing.

## 2. Plan per property

| id | model | technique |
|----|-------|-----------|
| C01 C02 C03 | `Block` with sorted list of `[start,end)` ranges over `Nat` addresses; `FreeListAllocator` as list of blocks plus history of live allocations | invariant by induction over operations: `free ∪ live` tiles each block |
| C04 | `booleanSort` on lists (deque style from both ends) with predicate call trace | induction on length, refinement to `filter` up to permutation |
| C05 | `Interval K` | decision logic over an ordered field; disagreement for inverted intervals |
| C06 C07 C08 | `BoundingBox K` with invalid boxes | lattice laws, set semantics as separate spec |
| C09 | row-major `data : Fin (m*n) → K` | refinement to Mathlib `Matrix` |
| C10 C12 | 2x2 Cramer and LCP enumeration with `Outcome` | field/linear arithmetic |
| C11 | modified Gram–Schmidt on columns over `ℝ` | orthonormality invariant by induction over columns, back substitution |
| C13 | sweep loop with fuel + relational termination | energy descent argument (SPD), witness of divergence otherwise |
| C14 C15 C16 C17 | vertex lists, shoelace sums | sums over cyclic pairs; induction on lists |
| C18 C19 | region logic with thrown outcome | convex projection characterisation |
| C20 C69 C70 | `Gjk`: the `Simplex` loop, the loop of `separation` and the expanding polytope of `penetration` over finite vertex lists, with fuel (`none`: more iterations needed) | the loops of the constructor and of `penetration` end within \|A\|\|B\|+4 iterations (each adds a new difference of vertices), that of `separation` may not; separating directions and hull membership for exactness; the closest edge of the polytope bounds every clearing translation |
| C71 | `GeometricProperties`, `Polygon`, `MassProperties`, `Colliders` over loops that can be cut into positive triangles (`Spec/Triangulated`) | shoelace sums are additive under cutting an ear and invariant under rotation of the loop; a positively weighted mean stays in the hull; induction over histories |
| C72 | `Model/Library`: networks of the library's own constraints (`Kind`: equality, inequality, limits, mouse, contact) plugged into the island model | every call changes velocities and positions by `invMass * Jᵀ`-vectors with opposite linear parts; sums over a group are invariant through all phases (`Lemmas/IslandMomentum`), integration adds `dt` times momentum |
| C73 | same networks | `Sound`: the predicate 'solvable wherever the bodies are' is kept by all calls and makes each of them succeed; loops over calls, islands and worklist by induction; which constraints qualify via C34 and C36 |
| C74 | `MouseConstraintFunction`, `MouseConstraint` (`mouseFun`, `mouseFunOf`, `mouseBase`) on the equality solver | placement of the point by C27; impulse and velocity by the telescoping of C33/C34 for any interleaving; direction by the quadratic form of the effective mass; `C47_mouse` gives its jacobian |
| C75 | `Library.net` (islands, joints, contacts) with `enableWarmstarting = false` | each constraint spends: kinetic energy of its two bodies plus its store (`damping·λ²`) decreases with every velocity iteration (`Kind.velocity_spend`), proved from the projection property of the effective mass for equality/limits and of the LCP for contacts; induction over phases, islands and the loop (`solveLoop_spend`). Friction is left out: the cone can shrink between iterations, which may return energy |
| C76 | `Motion.step`: what `World::step` does to the bodies for a positive time step — `applyForces`, `solveIslands` on the constraints of the library, `endSolve` and the sleeping part of `updateBodies` (contacts are given: Model/World.lean has their life) | C30 (fields), C72 (constraints only exchange momentum) and C37 (free flight) composed for one step; the conditions shown to hold again after it (local centroids via C72 with another quantity); induction over a flight in which everything outside the group may change between steps; existence for every number of steps from C73 |
| C77 | `Motion.step` without warmstarting, `CalmFlight` (a flight of C76 whose constraints are those of C75) | C75 for a whole step (`C75_step`, also with immovable bodies in the group) bounds the kinetic energy by what gravity made it, C76 gives the momentum and the height of the centre of mass exactly; the sum loses `dt² M |g|² / 2`; induction over the steps |
| C78 | `Motion.step`; `AtRest`, `LeftAlone`, `Undisturbed` (steps between which the group is not touched); `Kind.Satisfied` says for each kind of constraint of the library when it has nothing to do | every call on a satisfied constraint leaves positions and velocities (two-stage predicate: `Satisfied` before `initSolve`, `Primed` after), so by induction over calls, islands and steps nothing moves; zero velocity makes `isImmobile` true, so the clock adds up to the delay. `C78_joints`, `C78_distance`, `C78_contact`, `C78_new` say what being satisfied means for hinges, rotations, welds, the mouse, distances and contacts. The update of contacts before solving is outside `Motion.step` |
| C79 | `solveIslands`, `Motion.step`; two nets (worlds) compared by `SameGroup`, `Enclosed`, `Alongside`; states of constraints compared through a relation `agree` | two-world simulation (Lemmas/IslandTwin.lean): islands outside the group are skipped on either side, islands with a body of the group are built with the same bodies and constraints at the same indices and solved by the same calls. `C79_functions` and `Kind.local_act` show that every class of the library only reads and writes the entries of its own two bodies. `SideBySide` chains steps |
| C80 | `Motion.step`, every class of constraint, `Contact.make`, `updateContacts`, `Manifold.update`, `Gjk`; two worlds compared by `Elsewhere d 0`, `Accompanied d 0` | the two-world simulation of C79 with corresponding frames of reference (Props/IslandFrames.lean): each call of a constraint on translated bodies gives the same multipliers and translated results (`Kind.act_moves`); `support_shift` carries over to all loops of Gjk; contacts made or updated at translated colliders have the same manifold (`C80_contacts`, including the cases that throw or are undefined). `Apart` chains steps |
| C81 | as C80, with a velocity `u`: `Elsewhere d u`, `Accompanied d u` | as C80; positions correspond before the integration up to `d`, after it up to `d + dt u`. Jacobians with opposite linear parts do not see a common velocity (`mul_boost`), which is why the constraints have to be between two bodies |
| C82 | `App` (Model/Application.lean): the scenes constructed so far, the map from names to scenes, the current scene, the size of the window, the static variables of `doGui`; `registerScene`, `changeScene`, a whole frame (selection, settings window, controls, tools, step), callbacks. A scene is that of C42 | Invariant by induction over histories (`Inv`: attached iff current; constructed; never none again), every operation but a change of scene is an `Edits` of the current scene only; undefined behaviour (null scene or renderer) is an outcome and excluded; second invariant `Fills` for the view |
| C83 | as C82; `Away`: histories during which the scene is not the current one | false for the world of the scene (`C83_disagreement`, for all histories `C83_always_restarts`); everything else is kept: `C83_returned_partial`, from `C82_others` by induction over the history |
| C84 | as C82; `World::Settings` of each scene and the static copy of the window; conversions from `int` to `Uint32` | `C84_applied_partial`, `C84_hidden`; false when the window is opened (`C84_opening_disagreement`, in general `C84_overwrites`) and for values typed in out of range (`C84_negative_disagreement`) |
| C85 | `ContactManifold::update` with the query of `Gjk` it makes, `computeContactEdge`, `computeContacts`, `Edge::clipInside` (as C52, C70); the loops of `Gjk` in a stated number of iterations | `C85_normal` (success, unit normal along the shortest way out, bounded depths, for all strictly convex polygons), `C85_none`, `C85_found_partial` (a contact exists, and reaches the full depth, when no angle of the reference polygon is obtuse or when the facing edges are parallel); false otherwise (`C85_missed_disagreement`) |
| C86 | `World::makeBody`, `World::makeConstraint`, `Body::addCollider`, `Body::removeCollider`, the constructor of `Bodies`, `Proxies::applyImpulse`, over histories (`Assembly`); any movement of bodies in between | `C86_creation` (masses at the time of creation, all histories), `C86_dominance` (dominances of the descriptors), `C86_present_partial`; false after the colliders of a joined body change (`C86_disagreement`) |
| C87 | `Body` events over its life (`Event`, `happen`, `live`): collider calls, velocity calls, steps as any number of `Position::advance` followed by `Body::update` (`Island::endSolve`) | `C87_follow`, `C87_step` (even after failed calls), `C87_together`, `C87_quiet`; `C87_contacts` links with C85 |
| C88 | `BoxSpawner`: settings, `makeBox`, `onMousePress`, `doGui` with any edits within the ranges of the sliders (values typed with ctrl+click are not modelled), over sequences of frames and mouse events | `C88_box`, `C88_uses`, `C88_edit`, `C88_window_partial`, `C88_same_box`; false for an untouched frame in general (`C88_disagreement`) |
| C89 | `init` of `BoxStacks`, `Pyramid`, `Tower`, `NewtonPendulum`: the bodies as lists of pieces, made one after the other with the model of `Body`; without drawing and force fields | `C89_stacks`, `C89_pyramid`, `C89_tower`, `C89_pendulum`: for all settings each piece lies in a rectangle and the rectangles are separate. `C89_fixed`, `C89_pushed`: exactly the ground (the bar) is fixed, exactly the last balls are pushed |
| C90 | The model of the world (C38-C41) run with the list of contacts permuted arbitrarily before each call (`Runs`): the hash table is keyed by addresses. The `preStep`/`postStep` of contacts are those of the library, which change the contact only | `C90_runs`, `C90_solver`: simulation relation `SameUpToOrder`, preserved by each operation |
| C91 | World and tree together (`Engine`): each operation drives the model of the world (C38-C40) and the model of the R-tree (C21-C25), and the calls of `registerContact` are those that the tree makes | `C91_defined_partial`, `C91_contacts`, `C91_contacts_before`, `C91_tree`, `C91_touching`: invariant `EngineInv` over all histories. Partial for the same reasons as C39 and C40: the destructor of bodies with colliders, and structural bodies that meet |
| C92 | What visible bodies, constraints and contacts draw (Model/Visible), on the model of the renderer (C44, C62, C64); `Shows`: union of the triangles of the fans | `C92_polygon`: the fan around any point of a convex polygon covers exactly the polygon (exit point of the ray, least over the edges) and its triangles do not overlap; `C92_body`, `C92_step`: for all lives of a body, with C87 and C71; `C92_screen`: down to the batches given to OpenGL; `C92_line`, `C92_distance_partial`, `C92_mouse`, `C92_contact_partial`. False: `C92_refused_disagreement`, `C92_distance_disagreement`, `C92_contact_disagreement` |
| C93 | The window of the scene controls (`App.control`, Application.cpp:448-481) against the keys (`App.key`, Scene.cpp:53-108), over all histories of an application | `C93_speed`: what all functions of a scene keep holds of every scene of every reachable application (`Scene.Kept`, induction on histories); `C93_buttons`: the same application state as by the key, and what it is; `C93_clicks`: any sequence of clicks; `C93_refines`: the button of C60; `C93_pause_partial`: invariant `InSync` over the histories that leave the pause alone. False: `C93_pause_disagreement` |
| C94 | Steps of the whole library (`Motion.step`) in two worlds, one with `κ` times the density (`AsHeavy`, `Weighed`; the rest of the worlds may differ) | `C94_functions`, `C94_bodies`: how heavier bodies, their constraints and motors come about through the API; `C94_step_partial`: a step of one world is a step of the other, through islands, the five kinds of constraints (each solver call commutes with scaling impulses by `κ` and effective masses by `1/κ`), forces, sleeping and contacts made anew or updated; `C94_steps_partial`: any number of steps (`InStep`). Missing: inequalities of more than one dimension and new mouse constraints, where it is false: `C94_inequalities_disagreement`, `C94_mouse_disagreement` |
| C95 | The R-tree as nodes at addresses (`Model/RTreeHeap`): every pointer assignment, allocation and deletion; using an address without a node is `ub`. Clients name elements by the number of their insertion (`Spec/RTreeHeap`) | `C95_histories_partial`: induction over histories with a representation invariant (`Holds`: the memory is a tree of values, `Model/RTree`, at distinct addresses, and untouched elsewhere), each function refined by the one on trees; `C95_no_leak`; `C95_erase`, `C95_drain`, `C95_erase_loop_partial`. Missing: moved trees and emptying the tree by `it = erase(it)`, where it is false: `C95_move_disagreement`, `C95_erase_loop_disagreement` |
| C96 | Constraints, islands and steps as for C73 and C94 (`Model/Constraint`, `Model/Library`, `Model/Island`, `Model/Motion`). Turning joints around is defined in `Spec/JointOrder` on functions, solvers, networks and worlds | `C96_functions`, `C96_bodies`, `C96_new`, `C96_distance`: what the constructors make in the other order is the turned constraint in its first state. `C96_calls`: each call of a turned constraint has the same effect (impulses and right hand sides change sign together). `C96_step`, `C96_steps`, `C96_order`: simulation through islands (`Lemmas/IslandTurned`) and steps. Exact arithmetic (changing a sign is exact in floats, reordering sums is not); constraints on one body have no order; contacts take their order from the tree |
| C97 | The functions of `Model/World` with the calls of `wake` and `sleep` that they make (`Model/WorldSleep`, over the clocks of `Model/Sleep`); dropping the clocks gives `Model/World` back (`apply_world`). What a body is held by, and histories during which a body sleeps, are in `Spec/WorldSleep` | `C97_calls_partial` and `C97_step`: a body that sleeps after a call, when forces are applied, or after a step, has the same joints, contacts and colliders as before (by following lists and clocks through each function). `C97_history_partial`: the same over histories. `C97_wakes`: the bodies of new and dead constraints and contacts are awake, and get forces. `C97_forces`: new force fields. `C97_disabled`: an invariant of all histories. Partial: false for killed force fields and for the last collider (section 3), and not stated for exceptions while adding or removing colliders |
| C98 | Floats as numbers, two infinities and NaN with the operations of IEEE 754 except rounding and overflow (`Model/ExtBox`); comparison matrices of any size, boxes and tree queries on them. Meaning on the extended line in `Spec/ExtBox` | `C98_comparisons`, `C98_valid`, `C98_overlaps`: exact characterisations by cases. `C98_never_misses`: boxes with a common point overlap, whatever their bounds. `C98_overlaps_partial`, `C98_region_partial`: exact for sides that are bounded on both ends or on none. `C98_union_partial`, `C98_contains_partial`: exact without NaN. `C98_finite`: agrees with the model of C06 and C07. Partial: false for sides bounded on one end and for NaN (section 3) |
| C99 | GLFW and OpenGL as the objects they hold (windows, contexts, shaders, programs, arrays, buffers, with deferred deletion of attached shaders and programs in use), names and failures as parameters; constructors and destructors of `OpenGlRenderer` and `Application`, `flush`, the loop of `run` (`Model/Graphics`) | `C99_life`, `C99_lives`: by an invariant over frames and induction over applications, all is drawn and the system is clean again. `C99_reports`: success exactly if all calls succeed, never undefined behaviour. `C99_renderer_partial`, `C99_failure_partial`: exactly what is left. Partial: shaders leak, failing constructors leave the window, two applications at a time break each other (section 3) |
| C100 | Allocators as references to shared lists of blocks (`std::shared_ptr`: a list ends with its last allocator or deleter), the blocks of C01 to C03, pointers with their deleters, objects with numbers (`Model/Pool`). Casting an address back to a class where no such object is is undefined behaviour | `C100_histories_partial`: by an invariant over all histories that instantiates the one of C01 to C03 for each list of blocks. `C100_reset`: the right object is destroyed. `C100_all_gone`. `C100_no_leak_partial`. Partial: pointers to base classes that do not begin the object, and constructors that throw (section 3) |
| C101 | The model of a step of C87 and C94, for two worlds of which one takes a `σ`-th of the time (`Spec/SlowMotion`: which settings, states and functions correspond, and by which powers of `σ`) | `C101_functions` and `C101_bodies`: what the library makes for faster bodies corresponds. `C101_step_partial`, `C101_steps_partial`: by the correspondence of islands in two worlds (C90) over any number of steps. Partial: contacts with restitution, and inequalities of more than one dimension (section 3) |
| C102 | The velocity phase of `solveIsland` (C24, C72) with the constraints of the library. `Spec/Converged`: the law of each class of constraint, with `Best A l u` (of the impulses in `A`, `l` leaves nothing to do about the velocity `u`) | `C102_laws_partial`: a round changes no multiplier iff the laws hold, by a fixed point lemma for each solver (projections, Gauss-Seidel, the block solver of contacts) and induction over the constraints. `C102_stays`, `C102_more_iterations`: then nothing changes any more. `C102_joint`, `C102_motor`, `C102_limits`, `C102_inequality_partial`, `C102_contact`: what the laws say. Partial: damping of inequalities (section 3) |
| C103 | As C102. `Spec/Unique`: islands that differ in what the solvers remember; constraints without friction; masses without dominance | `C103_unique_partial`: the velocities are the first ones plus the impulses held by the solvers (`Tallied`, by induction over the calls); the laws make the impulses oppose the differences of velocities (`Kind.antitone`), and the kinetic energy of the difference of two results is then not positive. `C103_library`: the condition on functions holds for all those of the library. Partial: friction and dominance (section 3) |
| C104 | As C103. `Spec/Contract`: joints, and how far an island is from settled (kinetic energy of the difference, and what the dampers hold) | `C104_contracts_partial`, `C104_rate_partial`, `C104_velocities_partial`, `C104_converges_partial`: an iteration is a block Gauss-Seidel sweep with the positive semidefinite matrix of the island (`round_sweep`); such sweeps contract its quadratic form, also if it is singular (`sweep_contracts`, with a generalised inverse and Cauchy-Schwarz, in any ordered field). Partial: dominance (section 3) |
| C105 | As C103. `Spec/Project`: constraints whose one call satisfies their law | `C105_last`: the law of each kind of constraint holds right after its own call (`Kind.solve_law`). `C105_converges`: from the second iteration on an iteration is a projected block Gauss-Seidel sweep (`round_psweep`); the gap `quad A x + w x` to the settled multipliers never grows, shrinks by the quadratic form of each change, and must become small (`psweeps_converge`, any Archimedean field, singular matrices included). That a settled state exists is a hypothesis; friction and dominance are excluded because the claim is false with them (C103, C104) |
| C106 | The whole step (`Motion.step`, as C75 and C78) with remembered impulses. `Spec/Standing`: a constraint that carries, impulses that balance the forces of a step, `n` steps between which nothing happens to the structure | `C106_step`, `C106_stands`: warm starting stops the bodies, every call of the velocity iterations then changes nothing (its law already holds with its total impulses), so do integration and position corrections (`solveIsland_standing`, `solveLoop_stands`). `C106_hinge`: the impulses of a hinge. Motors, limits and ropes are not considered, nor steps without warm starting (the impulses are then built up again by the iterations: C104, C105) |
| C107 | The whole step (`Motion.step`) for a group that sleeps, with any remembered impulses. `Spec/Slumber`: constraints without anything to correct, `n` steps in which the group sleeps | `C107_step_partial`, `C107_sleeps_partial`: without warm starting nothing moves (the lemmas of C106 with impulses zero: a constraint that forgets its impulses carries nothing). Missing: with warm starting, the default, it is false: `C107_creep_disagreement`. (Structures that remember no impulses: C78) |
| C108 | `init` and `postStep` of `Tumbler` (`Model/Tumbler`): the drum made with the model of `Body`, and a state machine with the counter, the limit and the pause of the scene. Drawing, gravity, the motor and what the steps do to the boxes are left out | `C108_drum` (mass, inertia, covered points), `C108_closed` (intermediate value theorem), `C108_boxes` (induction over what happens), `C108_fills` |
| C109 | The steps of `Motion.step` (C84, C106) with a rotation motor made by `Bodies.singleBody` for a body of dominance zero, without damping; the constraint is active. `Spec/Driven` says which bodies and which runs | `C109_step` (what a step does, from an invariant over the islands and the constraints of the island: only the motor acts on the body, the first iteration reaches the clamped impulse, the others keep it), `C109_gains`, `C109_loses`, `C109_turns`, `C109_points`, `C109_round`, `C109_tumbler` (induction over the steps), `C109_goes_on` (no step fails) |
| C110 | `applyImpulse`, `applyForce` and the setters of `Body` (`Model/Body`); `Spec/Push` has momentum, angular momentum and energy | `C110_pushed` (algebra), `C110_pushes` (induction over the pushes, permutations), `C110_set` |
| C21 C22 C23 C24 | functional binary tree with optional root children, zipper for the upward refit; box heuristics as parameters | invariants over operation histories, permutation of leaves, pruning soundness |
| C25 | branch and bound loop with an abstract min-queue | loop invariant: lower bound of queued subtrees |
| C26 C27 | `Rotation`/`Translation`/`Transform` over `ℝ` | trigonometric identities |
| C28 | `MassProperties` fold | commutative monoid up to positivity, parallel axis spec as sum over pieces |
| C29 | `Body.addCollider/removeCollider` as written | **expected to be false** of the code (centroid difference is evaluated before the local centroid is updated; changing the local centroid of a rotated body shifts geometry): negation with witness + partial |
| C30 | fold of `apply` over colliders | sum identities |
| C31 | policies as an enum | case analysis |
| C32 C33 C34 | Jacobian rows, proxies, `updateLambda` loop, the three solvers of ConstraintSolver.hpp | histories of warm starts, solves and foreign velocity changes (`SolveEvent`); telescoping, clamp invariants, linear algebra |
| C35 C36 | contact state machine | invariant over transitions |
| C37 | worklist island construction on a finite graph | reachability, loop invariant; hypothesis: activity of a constraint is stable during a step; `C37_library`: the hypotheses on calls hold in every world made of the library's constraints |
| C38 | as above with the `isAwake_` flag | **expected to be false** (flag not cleared between islands; signed angular velocity test): negation + partial |
| C39 C40 C67 C68 | `World`: bodies, constraints, contacts, forces and colliders as finite maps of addresses with the lists that point to them; a log of constructions, notifications and destructions; steps that throw at each stage | invariant by induction over operation histories; the collisions reported by the tree are a parameter (`Reports`); use of a freed object is `ub` |
| C66 | `Grab`: the tool's pointer to its constraint, on top of `World` | invariant over interleavings of mouse events and world operations |
| C41 C42 C43 | small state machines | invariants |
| C44 | index buffer with 16 bit wrap | invariant with explicit bound on polygon size, witness beyond it |
| C45 | destructor loop over list nodes, erased nodes tracked | **false**: undefined iff a collider is owned |
| C46 | Jacobian entries | moments of the impulses about the origin |
| C47 | `eval` and `jacobian` over `ℝ` | `HasDerivAt` along the motion |
| C48 | `LimitsSolver` with its union and optional limits | decision logic; complementarity of the one-row projected Gauss-Seidel loop; `C48_setting` by induction over calls of the setters |
| C49 | `MotorFunctionBase`, both motors and their `Specs` | clamp cases after the exact one-row solve |
| C50 | row assignment/extraction loops of `ConstraintFunctions` | loop invariants on rows |
| C51 | `ContactConstraint::warmstart/solveVelocities` as events (`SolveEvent`) interleaved with foreign changes | telescoping of applied impulses; moments |
| C52 | `ContactManifold::update`, edge selection, clipping; GJK result as an arbitrary parameter | case analysis, closest point of a segment |
| C53 | `ContactConstraint::solvePositions` | one row solve or LCP (C12), linearised separation |
| C54 | `solvePosition` of the three solvers | linear algebra on the effective mass; inequalities of one row only, false for two (section 3) |
| C56 | as C37, from a state left by an exception | the loop never removes a body that already has an index |
| C57 C59 C61 | `Scene` with its camera, tools and key states; the world step is a possible failure | histories of operations; linear arithmetic |
| C58 | `windowToScene` as a 3x3 matrix | composition with the camera's matrix |
| C60 | the static toggle of the GUI and the flag of the scene | case analysis |
| C62 C64 C65 | `Renderer`: settings, loops with machine integers, polygons given to `drawPolygon` | induction over vertices; trigonometric laws |
| C63 | `ScopedTimer` | case analysis |
| C55 | `ContactConstraint::updateContacts` with an arbitrary penetration query | case analysis, support function (C17) |

No property is currently considered inexpressible.

## 3. Disagreements between code and property
(kept up to date as they are proved; see the end of this file)

* **C01** `allocate(n)` computes `n * sizeof(T)` without an overflow check
  (`C01_size_overflow_disagreement`).
* **C05** `Interval::overlaps` answers `true` for some inverted (hence empty) intervals
  (`C05_inverted_overlaps_disagreement`).
* **C21** `RTree::insert` of a box whose area overflows to infinity dereferences a null node
  (`C21_area_overflow_disagreement`). The batch query also reports an element with itself when the
  given range contains it (see `C23_range_query_is_exact`).
* **C11** `Solver<T, n>::original()` (n ≠ 2) of an invalid solver reads `QT_`, which the constructor left
  uninitialised (`C11_original_of_singular_disagreement`).
* **C12** outside P-matrices `LcpSolver::solve` silently returns zero although it is not a solution
  (`C12_wrong_outside_domain`); the property restricts itself to P-matrices.
* **C13** for matrices that are not positive definite `solveInequalities` may run forever
  (`C13_may_diverge`); the property says so.
* **C19** `orientation` treats `|2·area| ≤ EPSILON` as collinear, so a negatively oriented triangle that
  small is not flipped: `TriangleBarycentric` then throws (`C19_small_negative_throws`) or returns a point
  that is not the closest (`C19_small_negative_wrong`). With a repeated vertex the answer can be wrong too
  (`C19_repeated_vertex_wrong`). Proved outside these cases (`C19_triangle_partial`).
* **C27** the documentation of `BodyDescriptor::orientation` speaks of a rotation about the local origin; the code
  rotates about the centroid of the colliders (`C27_placement`), as the documentation of `Body::orientation` says.
* **C28** `Colliders::add` puts the collider in the list before computing its mass properties: when this throws
  (non-positive density, degenerate polygon) the collider stays although its mass is not counted
  (`C28_failed_add_stays`), and every later removal of another collider throws too (`C28_failed_add_poisons`).
* **C29** is false: `addCollider`/`removeCollider` compute the centroid displacement before the local centroid is
  updated, so the velocity correction is always zero, and moving the local centroid of a turned body displaces its
  geometry (`C29_add_disturbs`, `C29_add_witness`). Exact conditions: `C29_add_partial`, `C29_remove_partial`.
* **C45** is false: `~Body` erases the list node its range-for iterator designates and then advances the iterator;
  undefined as soon as the body owns a collider (`C45_destroy_partial`).
* **C48** a `DistanceConstraint` with only a minimal distance is always refused: the assertion `maxDistance > 0.f`
  compares an empty optional (`C48_minimum_only_disagreement`). When the two points coincide the Jacobian is zero and
  an equality distance constraint throws (`C48_coincident_throws`; the source has a TODO about it). A `LimitsSolver`
  without limits throws in `solvePosition`. `LimitsSolver` only compiles for functions of dimension 1.
* **C36** (limit of the claim) solving two contact points at once with restitution can create energy
  (`C36_two_contacts_gain`); the property is stated for a single point.
* **C52** with a combined penetration tolerance of 0, a pair whose boxes overlap but whose shapes do not penetrate makes
  `ContactManifold::update`, hence the world step, throw (`C52_zero_tolerance`).
* **C37** holds when a constraint gives the same answer each time it is asked whether it is active. Constraints with limits depend on positions
  and are asked again by later islands, after a body has moved: the body can then be in two islands and be integrated twice in
  one step (`C37_limits_disagreement`).
* **C38** is false: `Island::clear` does not reset `isAwake_` so every island solved after an awake one is woken (`C38_flag_disagreement`); the flag is
  also set by the other body of a constraint that turns out inactive (`C38_inactive_disagreement`); sleeping islands are solved and integrated
  like the others (`C38_asleep_moves_disagreement`); the angular velocity is compared with its sign, a body spinning fast in the
  negative direction falls asleep (`C38_spin_disagreement`).
* **C56** is false: `proxyIndex` is only reset by `endSolve`; if a constraint throws before, the next step never returns
  (`C56_interrupted_disagreement`, `C56_hangs`).
* **C55** `ContactInfo::refContacts` always holds the points of the second body and `incContacts` those of the first: when the reference edge
  belongs to the first body the names are exchanged (`C55_info_disagreement`).
* **C42** single-stepping a paused scene resumes it for the time of the step; if the world's step throws the scene stays resumed
  (`C42_single_step_disagreement`). A key held down is reported as used although nothing is done with it (`C42_repeat_disagreement`). Stepping or
  resetting a scene that is not the current one of an application dereferences a null pointer (`C42_detached`).
* **C44** is false for huge polygons: indices have 16 bits, when the batch reaches 65536 vertices a single triangle is drawn for the polygon
  (`C44_overflow_disagreement`).
* **C57** is false: the zoom factor is multiplied by the amount scrolled (`C57_scroll_disagreement`).
* **C60** is false: the button keeps its own copy of the flag, which the pause key and a change of scene do not update
  (`C60_button_disagreement`).
* **C62** is false from 256 vertices on: the loop counter is a `Uint8`, `drawPoint` never returns (`C62_point_disagreement`).
* **C63** is false: the moved-from and the moved-to timer both add nothing (`C63_moved_disagreement`).
* **C64** the vertices of a line are clockwise, `drawPolygon` asks for positively oriented vertices (`C64_orientation_disagreement`).
* **C65** is false except at right angles: the vertices are moved by the sum of the unit normals (`C65_contour_disagreement`).
* **C39** as the destructor of `Body` is written, destroying a body that has colliders is undefined (`C39_destructor_disagreement`, with `Cfg.repairedDestructor = false`
  for the code as it is). `setContactFactory` frees the contacts that bodies still list, the next step uses them (`C39_factory_disagreement`).
* **C67** contacts are never told of their destruction (`C67_contact_disagreement`), `clear` tells no object (`C67_clear_disagreement`).
* **C68** two structural bodies whose colliders overlap make the step throw in the middle of the update of the tree, which is left broken: every later
  step is undefined (`C68_structural_disagreement`).
* **C66** is false when the held body is killed or the world is cleared while a body is held: the tool keeps a pointer to the destroyed constraint
  (`C66_dangling_disagreement`).
* **C20** is false for flat geometries: two collinear segments, or two points, all of whose differences are perpendicular to the initial direction are said to
  collide even if they do not (`C20_flat_disagreement`). It holds as soon as one geometry has three vertices that are not on a line (`C20_polygons`).
* **C69** is false: `separation` may return a vector longer than needed (`C69_wrong_disagreement`) and may throw for geometries that do not collide
  (`C69_throw_disagreement`). It may also never return: for two quadrangles with small integer coordinates the simplex cycles through
  seven values (`C69_endless_disagreement`). What it returns does make them touch (`C69_touches_partial`).
* **C70** `penetration` may throw when the geometries only touch at a vertex (`C70_touching_disagreement`).
* **C54** is false for inequalities of several rows: the linear system is solved before the multipliers are clamped, so a system of two inequalities that holds
  may displace the bodies (`C54_inequalities_disagreement`). For the same reason C78 asks such systems to hold with equality.
* **C79** does not extend to sleeping groups: an awake body of another island, joined to nothing of the group, wakes it, because `isAwake_` is not reset between
  islands (`C79_sleep_disagreement`; the cause is the one recorded for C38).
* **C83** is false: `changeScene` resets `app_` of the scene that is left, so `!next->isInit() || next->app_ != this` holds for every scene that is not the current one and
  a scene is cleared and initialised again each time it is selected; `isInit` has no effect (`C83_always_restarts`, `C83_disagreement`).
* **C84** is false: the window shows a static copy that starts with default values and is written to the world of the current scene in every frame in which it is shown. Opening it
  replaces the settings the program gave, including those of sleeping, which the window does not show (`C84_opening_disagreement`); so does selecting another scene while it is shown.
  Values typed in below zero become huge numbers of iterations (`C84_negative_disagreement`; the slider is not clamped for typed input).
* **C85** is false when the reference polygon has obtuse angles: `clipInside` clips the incident edge with the neighbours of the reference edge (not with lines perpendicular to it), assuming that they intersect
  (TODO in Edges.hpp:78). If the incident edge is steeper than a neighbour, the clipped end lies in front of the reference edge and is dropped; both may be. A triangle whose tip is half a unit deep in the
  top of a trapezoid has no contact (`C85_missed_disagreement`), so it keeps sinking; likewise the corner of a box on a face of an octagon.
* **C86** is false: `Bodies` copies the inverse masses when a constraint (or a contact) is made and never refreshes them. After `addCollider` or `removeCollider` on one of its bodies the constraint solves for, and applies
  impulses with, the former masses; the momentum of the pair is no longer conserved (`C86_disagreement`). `dominance_` has no such problem, it cannot be changed.
* **C88** is false for the orientation: `doGui` takes away half turns instead of full turns (Tool.cpp:102-105), so that -90 degrees, once chosen, becomes 90 degrees in the next frame; and an orientation that is not a
  whole number of degrees, which only the program can set, is truncated when the window is shown (`C88_disagreement`). Boxes look the same after half a turn (`C88_same_box`), so users see it on the slider only.
* **C92** is false in three cases. `Colliders::add` keeps a collider whose mass properties could not be computed (no density): the call throws, and from then on `VisibleBody::draw` computes them again, so each
  step throws (`C92_refused_disagreement`). `VisibleDistanceConstraint::draw` does not check, unlike `VisibleMouseConstraint::draw`, that the two points differ before `drawLine`, which throws: a step fails as soon
  as the anchors meet (`C92_distance_disagreement`). `setLineWidth(0)` is accepted, and then drawing a contact throws (`C92_contact_disagreement`).
* **C93** is false for the pause button: `menu.pauseToggle` is a static variable of `doGui` shared by all scenes and not told about the P key. After pausing with the key the button says "Pause" and a click
  leaves the scene paused; after pausing with the button and selecting another scene, which runs, the button says "Play" and a click leaves it running (`C93_pause_disagreement`; C60 is the same button alone).
* **C94** is false in two cases. The projected Gauss-Seidel loop (`solveInequalities`) stops when impulses change by at most the constant `EPSILON`: for light bodies this is sooner, so inequality constraints of more
  than one dimension are solved less exactly (`C94_inequalities_disagreement`: whatever the constant, the lighter body keeps half of its velocity where the heavier keeps an eighth). `MouseConstraint` sets its damping
  to 1 whatever the mass of the body, so that how a body follows the mouse depends on its mass: the mouse brakes a body of mass 1 to a half of its velocity, one of mass 2 to two thirds (`C94_mouse_disagreement`).
* **C95** is false in two cases. The move constructor swaps with a `root_` that was never initialised, so destroying a tree that another one was constructed from by moving is undefined (`C95_move_disagreement`).
  `erase` computes the iterator to return before it removes the element; the removal may rotate nodes and so move elements in front of that iterator: `for (it = begin(); it != end();) it = erase(it)` on
  four unit squares at 0, 1, 4 and 2 leaves one of them in the tree (`C95_erase_loop_disagreement`). `World` does not use the returned iterator. `while (begin() != end()) erase(begin())` is fine (`C95_drain`).

**C97.** Three calls do not wake whom they should. (1) Killing a force field wakes nobody (World.cpp:249-266 only treats the bodies of constraints), although making one wakes its domain (World.hpp:241-248): a body that hovers in the wind of a field and has fallen asleep stays in the air after the field is gone (`C97_force_disagreement`). (2) `Body::removeCollider` returns before `setVelocity` when the last collider goes (Body.cpp:71-72), so that only this removal leaves the body asleep (`C97_last_collider_disagreement`); it gets no forces anyway, as forces are applied to colliders, but its contacts die and wake it in the next step. (3) `wake()` does not reset `timeImmobile_` (Body.hpp:351): a body that is woken because its support was removed sleeps again at the end of the same step if this step leaves it slower than the threshold, for instance after a short step, and hangs in the air (`C97_clock_disagreement`). Sleeping is off by default and marked as unused in the settings.

**C98.** (1) `Interval::overlaps` compares the distance of the middles with the sum of the lengths. If one bound is infinite the sum is infinite, and the test passes: a box that is bounded on one end only overlaps everything in that direction (`C98_half_plane_disagreement`), and so a force field with the region 0 <= x <= infinity, and all y, acts on every body of the world (`C98_region_disagreement`). (2) `<=` and `>=` of matrices are written as the negations of `>` and `<`, so they are true for NaN (`C98_comparisons`). A box with NaN bounds is therefore valid, and overlaps every valid box (`C98_nan_disagreement`), whereas the documentation says that boxes that cover no valid area overlap nothing: a body whose position became NaN touches every collider of the world. (3) The union with a NaN box depends on the order, since `std::min` and `std::max` keep their first argument (`C98_union_disagreement`).

**C99.** (1) `compileShaderProgram` detaches the shaders after the link but never deletes them: every renderer leaves two shader objects until its window is destroyed (`C99_shaders_disagreement`); if the fragment shader does not compile, the vertex shader is left too (`C99_failure_partial`). (2) The constructor of `Application` has no cleanup: if the window cannot be made or a shader is refused, GLFW stays initialised, and the window stays too (`C99_failure_disagreement`). That window still has the address of the application that was never made as its user pointer, so a program that catches the exception and makes another application has undefined behaviour at the next event of the first window (`C99_retry_disagreement`). (3) The destructor calls `glfwTerminate`, which destroys the windows of all applications: with two of them, ending one makes running or ending the other undefined behaviour (`C99_two_disagreement`).

**C100.** (1) The deleter gets the address the pointer holds as a `void*` and casts it back to the class the object was made as. If the pointer was converted to a base class that does not begin where the object begins, that is another address: the destructor runs on something that is no object, and the wrong memory is given back (`C100_base_disagreement`). `World::makeBody` and `makeObject` do convert: a class `class Ship : public Drawable, public simu::Body` in a world is undefined behaviour when it is destroyed, whereas `class Ship : public simu::Body, public Drawable` (the order of `VisibleBody`) is fine. (2) `makeUnique` does not give the memory back if the constructor throws: the pool of a world whose constraints are refused (the constructor of a constraint without enough structural bodies throws) grows by each attempt until the world ends (`C100_throw_disagreement`).

**C101.** (1) Contacts with restitution bounce from an absolute velocity on (`restitutionTreshold`, 1 length unit per time unit): an elastic body that comes at a speed of 3/4 stops dead, in a world in which everything happens twice as fast it is thrown back (`C101_bounce_disagreement`). The threshold is a private constant that users cannot adapt to their units. (2) The loop that solves inequalities of more than one dimension stops at an absolute difference of impulses, as in C94 (`C101_inequalities_disagreement`).

**C102.** `InequalitySolver` adds the damping to the effective mass, and adds the same matrix times the accumulated multiplier back to the right-hand side (the comment ConstraintSolver.hpp:230 says "TODO: Incorrect! must not use damping"): the damping cancels, so what the iterations settle at does not depend on it (`C102_inequality_damping_disagreement`), whereas a damped equality constraint, or one between limits, gives way in proportion to its impulse. The damping only makes the first iterations smaller, so how soft a damped inequality is depends on the number of iterations.

**C103.** (1) With friction the settled velocities depend on what the solvers remember: the bound of the friction depends on the normal impulse, and for a rod that slides obliquely on the ground both "no impulse at all" and "a push from the ground, with friction at full strength" satisfy all laws (`C103_friction_disagreement`, Painlevé's paradox): a rod that was placed there slides on unhindered, one that is warm started is braked, lifted and turned. (2) Dominance gives a body other masses in other constraints, so that the sum of the constraints is not the gradient of an energy: two bodies that dominate one another in different constraints end up at velocities that depend on the impulses of the last step (`C103_dominance_disagreement`).

**C104.** With dominance the velocity iterations can diverge although velocities that satisfy all joints exist: two bodies of which each dominates the other one in one of two joints get four times as fast at each iteration (`C104_dominance_disagreement`). Without dominance this cannot happen.

**C107.** `solveIslands` distinguishes sleeping islands, but the branch for them contains only the comment "reset forces and velocities on all bodies" (Island.hpp:295-298). They are solved like the others, with warm starting; forces, however, are not applied to sleeping bodies. A structure that fell asleep remembers the impulses that bore its weight and is pushed up with them; with more than one constraint, the iterations do not remove this. Two bodies that hang below each other at a fixed one creep while they sleep: after one step with the default settings the lower one has a velocity of 1/768 and another place, and still sleeps (`C107_creep_disagreement`). C38 records the related case of bodies that fall asleep while they move slowly.

**C48, setting.** `setLowerLimit` and `setUpperLimit` store the limit before they check it (ConstraintSolver.hpp:313-322). A call that crosses the limits throws, but has set them: a program that catches the exception has a constraint with crossed limits (`C48_refused_disagreement`).
