{"id": "C01", "title": "Live allocations never overlap, are aligned and stay inside owned memory", "statement": "For every history of allocate/deallocate calls made on a FreeListAllocator (each deallocate matching a live allocation), the byte ranges of all live allocations are pairwise disjoint, each start address is a multiple of the requested alignment, each range has the requested size and lies entirely inside a memory block owned by the allocator.", "quantifier": "all request sizes, alignments (powers of two or not), block sizes, base addresses handed out by the system allocator, and all finite interleavings of allocations and deallocations", "why_tests_cant": "Overlap depends on the interleaving of splits and merges of the free list; the number of histories is unbounded and a test only walks a few of them.", "anchors": ["include/Simu/utility/Memory.hpp: Block::allocate, Block::deallocate, FreeListAllocator::allocate, FreeListAllocator::deallocate"]}
{"id": "C02", "title": "The allocator never loses or invents bytes and releases everything once all is freed", "statement": "After any history, every byte of every owned block is either in exactly one live allocation or in exactly one free range; free ranges are non-empty, sorted and never adjacent (fully coalesced); and when all allocations have been given back the allocator owns no block at all.", "quantifier": "all histories of allocate/deallocate from an empty allocator", "why_tests_cant": "Leaks and fragmentation appear only after particular orders of frees (merge with previous, next, both, none); exhaustive orders cannot be tested.", "anchors": ["include/Simu/utility/Memory.hpp: Block, FreeListAllocator"]}
{"id": "C03", "title": "Allocation of a positive count always succeeds in at most one new block", "statement": "allocate(n) with n>0 (and no size overflow) never returns null: if no owned block can serve the request, the newly created block can. allocate(0) returns null and changes nothing.", "quantifier": "all allocator states reachable by any history, all sizes and alignments, any base address of the new block", "why_tests_cant": "The worst-case alignment padding depends on the address returned by the system, which tests do not control.", "anchors": ["include/Simu/utility/Memory.hpp: FreeListAllocator::allocate, Block::allocate"]}
{"id": "C04", "title": "booleanSort is an in-place stable-count partition", "statement": "booleanSort(first,last,goesLeft) only permutes the range, returns a position such that everything before it satisfies the predicate and nothing after it does, evaluates the predicate exactly once per element and terminates.", "quantifier": "all finite ranges and all predicates", "why_tests_cant": "Ranges and predicates are unbounded; R-tree correctness relies on it for every query.", "anchors": ["include/Simu/utility/Algo.hpp: booleanSort"]}
{"id": "C05", "title": "Intervals: overlap test is equivalent to sharing a point", "statement": "For intervals with min<=max, overlaps(other) is true exactly when some value is contained in both; contains is exactly min<=v<=max; approx(x,e) contains y iff |y-x|<=|e|. An interval with min>max contains nothing and is reported as overlapping nothing.", "quantifier": "all real end points", "why_tests_cant": "Infinite domain; the test uses a distance/span comparison rather than end-point comparisons, so equivalence is not evident from samples.", "anchors": ["include/Simu/math/Interval.hpp: Interval::contains, Interval::overlaps, approx"]}
{"id": "C06", "title": "Bounding boxes: combined is the least box enclosing both", "statement": "combined(a,b) encloses a and b and is enclosed by every box enclosing both; it is commutative, associative and idempotent up to ==; an invalid box is a neutral element.", "quantifier": "all pairs/triples of boxes, valid or invalid", "why_tests_cant": "R-tree refitting combines boxes in arbitrary orders; order-independence cannot be sampled.", "anchors": ["src/Simu/physics/BoundingBox.cpp: combined", "include/Simu/physics/BoundingBox.hpp: isValid, operator=="]}
{"id": "C07", "title": "Bounding boxes: overlap and containment have their set meaning", "statement": "a.overlaps(b) iff both are valid and some point of the plane lies in both closed boxes; a.contains(b) iff every point of b lies in a (for valid b); overlap is monotone: if b is inside c and a overlaps b then a overlaps c; a valid box overlaps itself; an invalid box overlaps nothing.", "quantifier": "all boxes, valid or invalid, all points", "why_tests_cant": "Infinite domain; pruning in the broad phase is only sound if monotonicity holds without exception.", "anchors": ["src/Simu/physics/BoundingBox.cpp: overlaps, contains", "include/Simu/physics/BoundingBox.hpp"]}
{"id": "C08", "title": "The bounding box of a vertex range is the tightest box around it", "statement": "The box built from a non-empty range of points contains every point and is contained in every box which contains every point; a Collider's bounding box therefore contains its whole world-space polygon after each update.", "quantifier": "all non-empty finite point ranges; all rigid transforms", "why_tests_cant": "Ranges are unbounded and the min/max seeding from the first point has to be right for every order.", "anchors": ["include/Simu/physics/BoundingBox.hpp: BoundingBox(Iter,Iter)", "include/Simu/physics/Collider.hpp: Collider::update"]}
{"id": "C09", "title": "Matrix algebra laws and lossless storage conversions", "statement": "Matrix +,-,*,transpose obey the ring laws (associativity, distributivity, (AB)^T=B^T A^T, identity), row-major element access is a bijection with (row,col) positions, and asRows/fromRows, asCols/fromCols are mutually inverse.", "quantifier": "all dimensions, all entries", "why_tests_cant": "Dimensions and entries are unbounded; index arithmetic errors can cancel on square or symmetric samples.", "anchors": ["include/Simu/math/Matrix.hpp", "include/Simu/math/Matrix.inl.hpp: operator*, transpose, fromRows, fromCols, asRows, asCols"]}
{"id": "C10", "title": "2x2 linear solver is exact and refuses exactly singular matrices", "statement": "Solver<T,2> is valid iff the determinant is non-zero; when valid A*solve(b)=b for every b and the solution is unique; when invalid solve throws; invert gives a two-sided inverse.", "quantifier": "all 2x2 matrices and right-hand sides (exact arithmetic)", "why_tests_cant": "Infinite domain; contact and hinge solving relies on it for every mass and geometry.", "anchors": ["include/Simu/math/Matrix.inl.hpp: Solver<T,2>, solve, invert"]}
{"id": "C11", "title": "n x n linear solver (QR) solves every non-singular system", "statement": "For every n, Solver<T,n> built from A is valid iff A is invertible, original() gives back A, and A*solve(b)=b for every b.", "quantifier": "all n, all matrices, all right-hand sides (exact arithmetic with exact square roots)", "why_tests_cant": "The dimension and the entries are unbounded; orthogonality of the intermediate basis is never observed by tests.", "anchors": ["include/Simu/math/Matrix.inl.hpp: Solver<T,n>::Solver, solve, original"]}
{"id": "C12", "title": "Two-contact LCP solver returns the complementarity solution", "statement": "For every matrix A with positive diagonal and positive determinant and every b, LcpSolver::solve(b) returns x with x>=0, A x - b >= 0 and x.(A x - b)=0, and this x is the only such vector.", "quantifier": "all 2x2 matrices with positive principal minors and all b", "why_tests_cant": "Which of the four cases applies varies continuously with the data; tests hit a handful.", "anchors": ["include/Simu/math/Matrix.inl.hpp: LcpSolver::solve"]}
{"id": "C13", "title": "Projected Gauss-Seidel: terminates for symmetric positive definite systems and returns a projected fixed point", "statement": "solveInequalities(A,b,proj,x0,eps) with box projections terminates for symmetric positive definite A, every returned component is a value produced by the projection, and the last sweep changed no component by more than eps. For other matrices it may run forever.", "quantifier": "all n, all SPD matrices, all right-hand sides, boxes, starting points and eps>0", "why_tests_cant": "Non-termination and convergence are properties of infinite executions.", "anchors": ["include/Simu/math/Matrix.inl.hpp: solveInequalities"]}
{"id": "C14", "title": "Area, centroid and second moment of a vertex loop do not depend on representation", "statement": "Reversing the loop negates the signed area and keeps centroid and moment of area; rotating the starting vertex changes nothing; translating keeps area and moment (about the centroid) and translates the centroid.", "quantifier": "all finite vertex loops with non-zero area", "why_tests_cant": "Vertex count and coordinates are unbounded.", "anchors": ["include/Simu/math/Geometry.inl.hpp: GeometricProperties", "include/Simu/math/Geometry.hpp"]}
{"id": "C15", "title": "A constructed Polygon is positively oriented with matching properties", "statement": "Constructing a Polygon from at least three vertices yields a polygon whose signed area is non-negative, whose stored properties equal those of its stored vertices, whose vertices are the given ones up to reversal; fewer than three vertices throw. Polygon::box(dim,center) has area w*h, centroid center and moment w*h*(w^2+h^2)/12.", "quantifier": "all vertex lists, all box dimensions", "why_tests_cant": "Infinite domain of vertex lists.", "anchors": ["include/Simu/math/Polygon.inl.hpp: Polygon", "include/Simu/math/Polygon.hpp: Polygon::box"]}
{"id": "C16", "title": "Iterating the edges of a polygon visits every boundary edge exactly once, cyclically", "statement": "For a loop of n>=1 vertices the edge range yields exactly the n edges (v_{i-1},v_i) in order, each once; next and previous are mutually inverse and wrap around; the start of next(e) is the end of e.", "quantifier": "all vertex counts", "why_tests_cant": "The wrap-around at both ends is a boundary behaviour for every n.", "anchors": ["include/Simu/math/Edges.hpp: Edges, Edges::Iterator, next, previous"]}
{"id": "C17", "title": "furthestVertexInDirection is a support function", "statement": "For a non-zero direction it returns a vertex of the geometry whose projection on the direction is maximal over the whole convex hull; a zero direction throws.", "quantifier": "all non-empty vertex lists and directions", "why_tests_cant": "Infinite domain; collision detection calls it with arbitrary directions.", "anchors": ["include/Simu/math/Geometry.hpp: furthestVertexInDirection"]}
{"id": "C18", "title": "LineBarycentric gives the closest point of a segment", "statement": "closestPoint is on segment AB and no point of the segment is nearer to Q; weights sum to one; a degenerate segment yields A.", "quantifier": "all A,B,Q", "why_tests_cant": "Optimality quantifies over all points of the segment.", "anchors": ["include/Simu/math/BarycentricCoordinates.hpp: LineBarycentric", "include/Simu/math/BarycentricCoordinates.hpp"]}
{"id": "C19", "title": "TriangleBarycentric gives the closest point of a triangle", "statement": "For every triangle, whatever its orientation, closestPoint lies in the triangle, no point of the triangle is nearer to Q, u+v+w equals the area and no input reaches the error branch.", "quantifier": "all A,B,C,Q", "why_tests_cant": "Optimality quantifies over all points of the triangle; region boundaries are measure-zero sets.", "anchors": ["src/Simu/math/BarycentricCoordinates.cpp: TriangleBarycentric"]}
{"id": "C20", "title": "GJK decides intersection of convex polygons", "statement": "Gjk(first,second).areColliding() terminates and is true exactly when the convex hulls of both vertex sets share a point (touching counts).", "quantifier": "all pairs of non-empty vertex sets, all initial directions", "why_tests_cant": "Termination and exactness over all shapes and degenerate touching configurations.", "anchors": ["include/Simu/math/Gjk.inl.hpp: Gjk::Gjk, Simplex, nextDirection, containsOrigin"]}
{"id": "C21", "title": "R-tree contents follow the operations", "statement": "After any sequence of insert, erase, update, updateAndCollide and clear, iterating the tree yields exactly the inserted-and-not-erased elements, each exactly once, with their current bounds; size() and isEmpty() agree; other iterators stay valid.", "quantifier": "all finite operation histories, all boxes (valid or not), whatever the cost arithmetic decides about insertion position and rotations", "why_tests_cant": "Rotations and re-parenting depend on area comparisons; histories are unbounded.", "anchors": ["include/Simu/physics/RTree.hpp: insert, extract, erase, update, updateAndCollide, clear, begin, end, size, isEmpty", "include/Simu/physics/RTree.inl.hpp: Iterator"]}
{"id": "C22", "title": "Every R-tree node's bounds are exactly the union of its children's", "statement": "After any sequence of operations, bounds() equals the combination of all element bounds, and the same holds for each internal node; only the root may have fewer than two children.", "quantifier": "all finite operation histories", "why_tests_cant": "The refit loop stops early when a node's bounds did not change; soundness of the early exit is an inductive invariant, not an observation.", "anchors": ["include/Simu/physics/RTree.hpp: refit, checkRotation, addLeafTo, extract"]}
{"id": "C23", "title": "R-tree region and point queries are exact", "statement": "forEachIn(box,f) calls f exactly once for each element whose bounds overlap box and for no other; forEachAt(p,f) likewise for bounds containing p; forEachOverlapping(it,f) likewise for the other elements overlapping it.", "quantifier": "all reachable trees, all query boxes/points", "why_tests_cant": "A pruned subtree hiding a hit only appears for particular tree shapes.", "anchors": ["include/Simu/physics/RTree.hpp: forEachIn, forEachAt, forEachOverlapping"]}
{"id": "C24", "title": "Broad phase reports every overlapping pair exactly once", "statement": "updateAndCollide(update,onCollision) recomputes every element's bounds exactly once, keeps all elements, and calls onCollision exactly once for each unordered pair of distinct elements whose new bounds overlap, and for no other pair.", "quantifier": "all trees, all new bounds, whatever the split heuristics do", "why_tests_cant": "Pairs are produced by a recursive divide and conquer with list partitioning; number of shapes is unbounded.", "anchors": ["include/Simu/physics/RTree.hpp: updateAndCollide, OverlapList"]}
{"id": "C25", "title": "R-tree insertion picks a cheapest insertion point", "statement": "The node chosen by insert minimises the total area increase among all nodes of the tree and a node is always found when areas are finite.", "quantifier": "all reachable trees, all new boxes", "why_tests_cant": "Optimality quantifies over all nodes; branch-and-bound pruning must never cut the optimum.", "anchors": ["include/Simu/physics/RTree.hpp: insert (branch and bound)"]}
{"id": "C26", "title": "Rigid transforms form a group and act consistently", "statement": "Composition of Rotation/Translation/Transform is associative with respect to application to points, inverse undoes, transformations preserve distances and orientation, and the 3x3 matrix conversion agrees with direct application.", "quantifier": "all angles, offsets and points", "why_tests_cant": "Trigonometric identities over a continuum.", "anchors": ["include/Simu/physics/Transform.hpp"]}
{"id": "C27", "title": "Body placement: local/world conversions are inverse and rotate about the centroid", "statement": "toLocalSpace and toWorldSpace are mutually inverse rigid maps; the local centroid is mapped to position+localCentroid whatever the orientation; advance(d,a) moves the world centroid by exactly d and turns by a.", "quantifier": "all positions, orientations and centroids", "why_tests_cant": "Continuum of states.", "anchors": ["include/Simu/physics/Body.hpp: Position"]}
{"id": "C28", "title": "Mass properties combine as physical bodies do", "statement": "Combining mass properties is commutative and associative; total mass is additive, the centroid is the mass-weighted mean and inertia follows the parallel axis theorem, so it equals the inertia of the pieces about the common centroid; a body's properties always equal the combination of its current colliders'.", "quantifier": "all finite collections with positive masses, all add/remove histories", "why_tests_cant": "Histories of adding and removing colliders are unbounded.", "anchors": ["include/Simu/physics/Collider.hpp: MassProperties, Colliders::add, Colliders::remove"]}
{"id": "C29", "title": "Adding or removing a collider does not disturb the rest of the body", "statement": "Adding or removing a collider leaves the world position and the velocity of every remaining material point of the body unchanged.", "quantifier": "all bodies, orientations, velocities and colliders", "why_tests_cant": "Only visible for rotated or spinning bodies with moved centroids; continuum of states.", "anchors": ["src/Simu/physics/Body.cpp: addCollider, removeCollider"]}
{"id": "C30", "title": "Uniform gravity accelerates every body equally and never spins it", "statement": "During one force application Gravity changes a non-structural awake body's velocity by acceleration*dt and leaves its angular velocity unchanged, whatever colliders it is made of; structural and sleeping bodies are untouched. A LinearField's total impulse on a fully covered body is force*dt.", "quantifier": "all collider collections with positive masses", "why_tests_cant": "Sum over arbitrary collider sets; cancellation of torques must hold for all geometries.", "anchors": ["include/Simu/physics/ForceField.hpp: Gravity, LinearField", "src/Simu/physics/World.cpp: applyForces"]}
{"id": "C31", "title": "Combined surface properties are symmetric and stay in range", "statement": "The friction/bounciness used for a contact does not depend on the order of the two colliders, and values in [0,1] combine to a value in [0,1].", "quantifier": "all pairs of property values and policies", "why_tests_cant": "Cartesian product of policies and reals.", "anchors": ["include/Simu/physics/CombinableProperty.hpp"]}
{"id": "C32", "title": "Constraint impulses conserve linear momentum and never move structural bodies", "statement": "Any impulse applied by a two-body constraint through its Jacobian leaves the total linear momentum of two dominance-1 bodies unchanged, and a body whose dominance in the constraint is zero keeps its velocity and position.", "quantifier": "all constraint types with opposite linear Jacobian parts, all masses, states and multipliers", "why_tests_cant": "Continuum of states; holds for any number of solver iterations.", "anchors": ["include/Simu/physics/Bodies.hpp: Proxies::applyImpulse", "include/Simu/physics/ConstraintFunction.hpp", "include/Simu/physics/ConstraintSolver.hpp"]}
{"id": "C33", "title": "Accumulated impulses respect the constraint's bounds after any number of iterations", "statement": "After any number of velocity iterations (warm start included) the accumulated multiplier of an inequality constraint is non-negative and that of a motor is within maxForce*dt*|throttle| per component; and the velocity change equals the accumulated multiplier applied once.", "quantifier": "all states, iteration counts and parameters", "why_tests_cant": "Bounds on accumulated (not per-iteration) impulses are invariants over executions.", "anchors": ["include/Simu/physics/ConstraintSolver.hpp: ConstraintSolverBase::updateLambda, warmstart, solveVelocity", "include/Simu/physics/Motors.hpp"]}
{"id": "C34", "title": "An equality constraint solved alone is satisfied exactly", "statement": "After one velocity solve of an unclamped equality constraint with valid effective mass, the constrained relative velocity equals the requested bias exactly, whatever the initial velocities.", "quantifier": "all Jacobians, masses, velocities of any dimension", "why_tests_cant": "Continuum of states.", "anchors": ["include/Simu/physics/ConstraintSolver.hpp: EqualitySolver"]}
{"id": "C35", "title": "Contacts only push and friction stays in the cone", "statement": "Normal multipliers of a contact are non-negative at all times (warm start, two-contact and one-contact solves, contact-count changes) and right after the friction update each tangential multiplier is at most friction*normal in magnitude.", "quantifier": "all contact histories, states and numbers of iterations", "why_tests_cant": "Invariant over executions.", "anchors": ["include/Simu/physics/Constraint.hpp: ContactConstraint"]}
{"id": "C36", "title": "A solved contact separates with the requested restitution", "statement": "After a normal solve, approaching contact points have relative normal velocity at least restitution times the incoming speed (at least 0 below the bounce threshold), and no energy is created by a frictionless single-contact solve for restitution in [0,1].", "quantifier": "all masses, lever arms and velocities", "why_tests_cant": "Continuum of states.", "anchors": ["include/Simu/physics/Constraint.hpp: ContactConstraint::solveVelocities, computeBounce"]}
{"id": "C37", "title": "Islands partition the constraint graph", "statement": "In one step every non-structural body is in exactly one island, every active constraint and contact is solved in exactly one island, two bodies linked by an active constraint through non-structural bodies are in the same island, bodies not connected are not, and every body is integrated exactly once (a zero-velocity structural body may appear in several islands, unmoved).", "quantifier": "all body/constraint graphs and processing orders", "why_tests_cant": "Graphs are unbounded; order of discovery varies.", "anchors": ["include/Simu/physics/Island.hpp: Island::init, addConstraint, addBody, solveIslands"]}
{"id": "C38", "title": "Sleeping affects only islands whose bodies are all asleep and immobile", "statement": "An island in which every body is asleep is left alone unless one of its own bodies is awake, and a body may only fall asleep after having been continuously immobile (linear and angular speed under the thresholds) for the configured delay.", "quantifier": "all worlds, processing orders and velocities", "why_tests_cant": "Depends on processing order and on sign of the angular velocity.", "anchors": ["include/Simu/physics/Island.hpp: clear, isAwake, solveIslands", "include/Simu/physics/Body.hpp: isImmobile, canSleep, updateTimeImmobile"]}
{"id": "C39", "title": "No dangling references in the world's object graph", "statement": "After any history of makeBody, makeConstraint, add/removeCollider, kill and step, every constraint/contact listed by a body is owned by the world and refers to that body, every constraint/contact's bodies are owned by the world, and killed objects are gone after the next step.", "quantifier": "all finite histories of public operations", "why_tests_cant": "Lifetimes depend on interleavings; a dangling pointer may go unnoticed in tests.", "anchors": ["src/Simu/physics/World.cpp: cleanup, removeCollider, updateBodies", "include/Simu/physics/World.hpp: makeBody, makeConstraint, setContactFactory, clear", "include/Simu/physics/PhysicsObject.hpp"]}
{"id": "C40", "title": "Exactly one contact per overlapping pair of colliders", "statement": "After each step with dt>0, there is a live contact for a pair of colliders iff their bounding boxes overlap, they belong to different bodies and no live constraint between the bodies disables contacts; never two contacts for the same unordered pair; a persisting pair keeps its contact object.", "quantifier": "all histories of steps and collider movements", "why_tests_cant": "Pairs may be reported in either order at each step.", "anchors": ["src/Simu/physics/World.cpp: updateBodies", "include/Simu/physics/World.hpp: inContacts"]}
{"id": "C41", "title": "Camera transforms are inverse of each other and keep the view valid", "statement": "For every history of camera operations the zoom and dimensions stay positive, invTransform undoes transform, and the displayed rectangle maps exactly onto the screen square [-1,1]x[-1,1].", "quantifier": "all histories of camera calls and all points", "why_tests_cant": "Unbounded histories, continuum of points.", "anchors": ["src/Simu/app/Camera.cpp", "include/Simu/app/Camera.hpp"]}
{"id": "C42", "title": "Scene time control", "statement": "A paused scene never advances time; an unpaused one advances by at most 1/60*playSpeed per frame; playSpeed stays positive; single-stepping keeps the pause flag.", "quantifier": "all histories of scene events", "why_tests_cant": "Unbounded histories.", "anchors": ["src/Simu/app/Scene.cpp", "include/Simu/app/Scene.hpp"]}
{"id": "C43", "title": "Profiler statistics are the true mean, maximum and last value", "statement": "After any sequence of measures a TimeEntry's average is their arithmetic mean, max their maximum, last the latest; reset restores the empty state.", "quantifier": "all finite measure sequences", "why_tests_cant": "Running average recurrence must hold for every length.", "anchors": ["include/Simu/physics/Profiler.hpp: TimeEntry"]}
{"id": "C44", "title": "Polygon draw batches never index outside the vertex buffer", "statement": "After any sequence of drawPolygon and flush calls every index refers to a vertex of the current batch, and each polygon's triangles use only that polygon's own vertices.", "quantifier": "all sequences of draws with any vertex counts", "why_tests_cant": "Indices are 16 bit and batches are flushed on a threshold; the overflow needs particular sequences.", "anchors": ["src/Simu/app/Renderer.cpp: OpenGlRenderer::drawPolygon, flush", "include/Simu/app/Renderer.hpp: maxVertices_"]}
{"id": "C45", "title": "Destroying a body is safe whatever it owns", "statement": "Destroying a body, with any number of colliders still attached, has no undefined behaviour: every collider is removed exactly once and no destroyed list node is accessed.", "quantifier": "all bodies and collections of colliders", "why_tests_cant": "Use of a freed list node often goes unnoticed when run; the claim concerns every number of colliders and every allocator state.", "anchors": ["include/Simu/physics/Body.hpp: ~Body", "src/Simu/physics/Body.cpp: removeCollider", "include/Simu/physics/Collider.hpp: Colliders::remove"]}
{"id": "C46", "title": "Constraint impulses conserve angular momentum", "statement": "Impulses of hinge, distance and weld constraints between two dominance-1 bodies leave the total angular momentum about the world origin unchanged (for a hinge and a weld: when the two anchor points coincide, which is what they enforce).", "quantifier": "all bodies, positions, anchors and multipliers", "why_tests_cant": "Depends on lever arms of arbitrary positions and on every sign of the Jacobian.", "anchors": ["include/Simu/physics/ConstraintFunction.hpp", "include/Simu/physics/DistanceConstraint.hpp", "include/Simu/physics/Bodies.inl.hpp"]}
{"id": "C47", "title": "Jacobians are the derivatives of their constraint functions", "statement": "For rotation, hinge, distance and weld constraints, and for any composition of them, the rate of change of the constraint function while the bodies move at their current velocities equals the Jacobian times these velocities.", "quantifier": "all bodies, positions, orientations, velocities and anchors", "why_tests_cant": "A finite difference test covers a few configurations with rounding; a wrong sign or lever arm can vanish at the tested ones.", "anchors": ["include/Simu/physics/ConstraintFunction.hpp", "include/Simu/physics/DistanceConstraint.hpp", "include/Simu/physics/Body.hpp:Position"]}
{"id": "C48", "title": "Limited constraints act exactly when a limit is reached and only inwards", "statement": "A constraint with a lower and/or upper limit is inactive iff its value is strictly within its limits; solved alone it satisfies the complementarity conditions of the violated limit (pushes only inwards, and does not push if the velocity already leads inwards); a distance constraint accepts exactly the limits documented for it (minimum > 0, maximum > 0, minimum <= maximum, at least one of them); limits can be set, changed and removed later as long as they are never crossed, and a call that would cross them is refused.", "quantifier": "all limits, states, histories of other impulses", "why_tests_cant": "Case distinction over limits, signs, warm start and previous state for a continuum of values.", "anchors": ["include/Simu/physics/ConstraintSolver.hpp:LimitsSolver", "include/Simu/physics/DistanceConstraint.hpp"]}
{"id": "C49", "title": "Motors reach their target velocity or saturate at their maximal force", "statement": "After a motor is solved, its body moves at the target velocity along each driven axis, or is short of it while the motor pushes with its full force, or is beyond it while the motor does not push; the change of velocity in a step made from an acceleration is at most this acceleration times dt.", "quantifier": "all motors, throttles, directions, bodies and histories of impulses", "why_tests_cant": "Saturation depends on accumulated impulses over any number of iterations.", "anchors": ["include/Simu/physics/Motors.hpp", "include/Simu/physics/ConstraintSolver.hpp"]}
{"id": "C50", "title": "Composite constraint functions behave as their parts", "statement": "Stacking constraint functions yields, row by row, the value, bias, Jacobian and clamping of the parts, and a weld solved alone satisfies both the hinge and the rotation constraint.", "quantifier": "all functions of any dimension and all states", "why_tests_cant": "Dimensions and functions are template parameters.", "anchors": ["include/Simu/physics/ConstraintFunction.hpp:ConstraintFunctions", "include/Simu/physics/Constraint.hpp:WeldConstraint"]}
{"id": "C51", "title": "Contact impulses act along the contact frame and conserve momentum", "statement": "Whatever the sequence of warm starts, friction and normal solves of a contact, the accumulated change of the bodies' velocities is exactly the one of the reported multipliers applied along the tangent and the normal at the contact points; for two bodies of full dominance linear momentum is unchanged, and angular momentum changes only by the moment of the contact forces about the gap between the two points of a contact.", "quantifier": "all contact frames, numbers of iterations, dt and interleavings with other constraints", "why_tests_cant": "The multipliers are accumulated over any number of iterations interleaved with other constraints.", "anchors": ["include/Simu/physics/Constraint.hpp:ContactConstraint", "include/Simu/physics/Bodies.hpp:SolverProxy"]}
{"id": "C52", "title": "A contact manifold holds one or two points of the incident edge facing the reference edge", "statement": "Updating a manifold after a collision yields at most two contacts; each incident point lies on an edge of the incident collider, each reference point is the point of the reference edge closest to it, the bodies penetrate each other along the normal at every contact, the contacts are distinct, and the reference edge is one that most faces the collision normal.", "quantifier": "all pairs of polygons, transforms, minimum translation vectors and tolerances", "why_tests_cant": "Continuum of relative placements with edge cases in the clipping (parallel edges, adjacent edges, reversed order).", "anchors": ["include/Simu/physics/ContactManifold.hpp", "include/Simu/math/Edges.hpp"]}
{"id": "C53", "title": "Contact position correction moves the bodies apart just enough along the normal", "statement": "Correcting the positions of a contact only pushes the bodies apart along the contact normal; for each contact the amount asked for is a bounded fraction of the penetration beyond the tolerance, nothing moves when the penetration is within the tolerance, and to first order the separation of each pushed point grows exactly by the amount asked for.", "quantifier": "all contact frames with one or two points, positions and masses", "why_tests_cant": "Continuum of configurations; the two point case goes through a linear complementarity solver.", "anchors": ["include/Simu/physics/Constraint.hpp:ContactConstraint::solvePositions"]}
{"id": "C54", "title": "Joint position correction is the minimal Newton step", "statement": "The position correction of an equality constraint displaces the bodies along the constraint gradients (weighted by inverse masses) so that the linearised violation vanishes; that of an inequality does so only when violated; that of a limited constraint brings the linearised value to the nearest allowed value.", "quantifier": "all functions, dimensions, states and masses", "why_tests_cant": "Functions, dimensions and masses are arbitrary.", "anchors": ["include/Simu/physics/ConstraintSolver.hpp"]}
{"id": "C55", "title": "Contacts persist only while they describe the configuration", "statement": "At the start of a step a contact either is kept, in which case all its points are within the tolerance and one of them is a deepest vertex of the incident body, or its points are recomputed, in which case the friction starts from zero and the total normal multiplier carries over (zero if there was no contact).", "quantifier": "all manifolds, poses and tolerances", "why_tests_cant": "Depends on the whole history of a pair of bodies over steps.", "anchors": ["include/Simu/physics/Constraint.hpp:ContactConstraint::updateContacts"]}
{"id": "C56", "title": "A world remains usable after a failed step", "statement": "If World::step ends with an exception raised while constraints are solved, later calls of step on the same world still return (normally or with an exception).", "quantifier": "all worlds, constraints and failure points", "why_tests_cant": "Needs an exception in the middle of solving; non-termination cannot be observed by a finite test.", "anchors": ["include/Simu/physics/Island.hpp: solveIslands, addBody, endSolve", "include/Simu/physics/Body.hpp: proxyIndex"]}
{"id": "C57", "title": "Scrolling zooms in the direction of the wheel", "statement": "Scrolling up never zooms out and scrolling down never zooms in, whatever the amount scrolled.", "quantifier": "all scenes and scroll amounts", "why_tests_cant": "The amount is a real number chosen by the device; tests use 1.", "anchors": ["src/Simu/app/Scene.cpp: onMouseScroll"]}
{"id": "C58", "title": "The scene position under the mouse is the one drawn there", "statement": "For every camera state and window size, the scene position passed to the mouse callbacks is the one the camera draws at the pixel under the cursor, and distinct pixels give distinct positions.", "quantifier": "all camera histories, window sizes and pixels", "why_tests_cant": "Continuum of positions and unbounded camera histories.", "anchors": ["src/Simu/app/Application.cpp: windowToScene", "src/Simu/app/Camera.cpp"]}
{"id": "C59", "title": "Keyboard panning speed is independent of the zoom", "statement": "Holding arrow keys moves the view at 500 pixels per second in the direction of the keys whatever the zoom and pixel size; opposite keys cancel; diagonals are not faster.", "quantifier": "all scenes, zooms, key combinations and frame durations", "why_tests_cant": "Continuum of zooms and durations.", "anchors": ["src/Simu/app/Scene.cpp: moveCamera"]}
{"id": "C60", "title": "The pause button reflects the scene", "statement": "The pause button offers to play exactly when the current scene is paused, and clicking it toggles the scene.", "quantifier": "all histories of clicks, pause key presses and scene changes", "why_tests_cant": "Depends on interleavings of two user interfaces.", "anchors": ["src/Simu/app/Application.cpp: doGui", "src/Simu/app/Scene.cpp: onKeypress"]}
{"id": "C61", "title": "The current tool is always a registered tool", "statement": "After any history of tool registrations and selections the current tool exists; selecting a tool by name selects the first one registered under it, an unknown name throws and keeps the current tool.", "quantifier": "all histories and names", "why_tests_cant": "Unbounded histories.", "anchors": ["include/Simu/app/Scene.hpp: useTool, registerTool", "src/Simu/app/Scene.cpp"]}
{"id": "C62", "title": "Points are drawn as regular polygons", "statement": "For every point radius and precision, drawPoint ends and draws the regular polygon with that many vertices on the circle of that radius around the point.", "quantifier": "all settings and points", "why_tests_cant": "Precision is unbounded; non-termination cannot be observed by a finite test.", "anchors": ["src/Simu/app/Renderer.cpp: drawPoint, updatePointOffsets", "include/Simu/app/Renderer.hpp: setPointPrecision"]}
{"id": "C63", "title": "A timer's measure is not lost", "statement": "The time between the creation of a scoped timer and its destruction is added to its entry exactly once, also when the timer is moved.", "quantifier": "all timers, moved or not", "why_tests_cant": "Moves are usually elided.", "anchors": ["include/Simu/physics/Profiler.hpp: ScopedTimer"]}
{"id": "C64", "title": "Lines are drawn as rectangles of the line width", "statement": "drawLine(A, B) with A different from B draws the rectangle with axis AB whose width is the line width, giving its vertices in the orientation drawPolygon asks for.", "quantifier": "all distinct points and widths", "why_tests_cant": "Continuum of inputs.", "anchors": ["src/Simu/app/Renderer.cpp: drawLine"]}
{"id": "C65", "title": "Contours have the width asked for", "statement": "drawContouredPolygon with an outside contour surrounds the polygon by a band whose width along each edge is contourWidth.", "quantifier": "all convex polygons and widths", "why_tests_cant": "Continuum of inputs; tests only see squares.", "anchors": ["src/Simu/app/Renderer.cpp: drawContouredPolygon"]}
{"id": "C66", "title": "Grabbing with the mouse holds one body at a time", "statement": "After any history of presses, releases and moves of the mouse interleaved with operations on the world, the mouse tool holds at most one body, releasing lets go of it, and the tool never uses a constraint that no longer exists.", "quantifier": "all interleavings of mouse events with steps, kills and resets", "why_tests_cant": "Needs interleavings of user input with the removal of bodies; a dangling pointer may go unnoticed in tests.", "anchors": ["src/Simu/app/Tool.cpp: Grabber::onMousePress, Grabber::onMouseMove", "include/Simu/app/Tool.hpp: Grabber"]}
{"id": "C67", "title": "Every object is told of its destruction exactly once", "statement": "Every body, constraint, force field and contact is constructed once, destroyed once, and its onDestruction is called exactly once, before any object is truly removed; objects that stay are not told.", "quantifier": "all finite histories of public operations", "why_tests_cant": "Depends on interleavings of kills, steps and clear; a missing call has no visible effect in most programs.", "anchors": ["include/Simu/physics/PhysicsObject.hpp: onDestruction", "src/Simu/physics/World.cpp: cleanup, Cleaner", "include/Simu/physics/World.hpp: clear"]}
{"id": "C68", "title": "A step that throws leaves the world usable", "statement": "If a step throws (from user code, a refused contact or a solver), the world holds no dangling pointers and can be stepped, queried, modified and cleared afterwards.", "quantifier": "all histories and all places from which a step can throw", "why_tests_cant": "Tests exercise few of the places from which a step can throw, and the damage shows later.", "anchors": ["src/Simu/physics/World.cpp: step, updateBodies", "include/Simu/physics/World.hpp: addCollider", "include/Simu/physics/RTree.hpp: updateAndCollide", "include/Simu/physics/Bodies.inl.hpp: Bodies"]}
{"id": "C69", "title": "Separation is the shortest translation that makes geometries touch", "statement": "If two convex geometries do not collide, translating the first by separation() makes them touch, and no shorter translation does; if they collide, separation() is null.", "quantifier": "all pairs of convex polygons, all initial directions", "why_tests_cant": "Continuum of inputs; the shortest translation is a claim about every other translation.", "anchors": ["include/Simu/math/Gjk.inl.hpp: Gjk::separation"]}
{"id": "C70", "title": "Penetration is the shortest translation that makes geometries only touch", "statement": "If two convex geometries overlap, penetration() ends and translating the second by it makes them only touch, and no shorter translation does; if they do not collide, penetration() is null.", "quantifier": "all pairs of convex polygons, all initial directions", "why_tests_cant": "Continuum of inputs, termination, and a claim about every other translation.", "anchors": ["include/Simu/math/Gjk.inl.hpp: Gjk::penetration, Polytope"]}
{"id": "C71", "title": "Solid colliders have positive mass and inertia and an inner centroid", "statement": "For a loop of vertices that can be cut into positively oriented triangles (convex or not, given in either orientation), area, centroid and moment of area are those of the triangles put together; with a positive density the mass and inertia of the collider are positive and its centroid lies in the convex hull of its vertices. After any history of adding such colliders to a body and removing colliders, the body has positive mass and inertia and a centroid in the hull of all remaining vertices.", "quantifier": "all vertex loops of any length, all cuttings, all densities, all histories of additions and removals", "why_tests_cant": "Polygons of any number of vertices and histories of any length; a test only sees particular shapes.", "anchors": ["include/Simu/math/Geometry.inl.hpp: GeometricProperties", "include/Simu/math/Polygon.inl.hpp: Polygon", "include/Simu/physics/Collider.hpp: MassProperties, Colliders"]}
{"id": "C72", "title": "A group of bodies only joined to each other keeps its momentum", "statement": "In a world made of the library's constraints, a group of bodies whose active constraints are contacts, hinges, welds, distance or rotation constraints between its own members (with dominance 1) keeps its total linear momentum through the solving part of a step, and its centre of mass moves exactly by the time step times momentum over mass, whatever the rest of the world does and although constraints also correct positions.", "quantifier": "all worlds, all groups, all constraint states, all iteration counts, with or without warm starting", "why_tests_cant": "Networks of any size and any order of solving; a test sees one scene and a rounded sum.", "anchors": ["include/Simu/physics/Island.hpp: Island::solve", "include/Simu/physics/ConstraintSolver.hpp: EqualitySolver", "include/Simu/physics/Constraint.hpp: ConstraintImplementation"]}
{"id": "C73", "title": "Worlds of well-posed constraints can always be solved", "statement": "If all joints are rotation constraints, hinges, welds, motors or mouse constraints on bodies that can move in the way they need, and contacts touch at one point or at two points apart along an edge of a body that can turn, solving all islands ends without an exception, whatever the positions and velocities of the bodies and the multipliers kept from earlier steps, and the world stays such that this holds again at the next step.", "quantifier": "all networks of such constraints, all poses and velocities, all settings", "why_tests_cant": "No exception in any reachable state of any scene; singular configurations have measure zero and are not hit by samples.", "anchors": ["include/Simu/physics/Island.hpp: Island::solve", "include/Simu/physics/ConstraintSolver.hpp: EqualitySolver", "include/Simu/physics/Constraint.hpp: ContactConstraint", "include/Simu/app/MouseConstraint.hpp: MouseConstraint"]}
{"id": "C74", "title": "Holding a body with the mouse", "statement": "A mouse constraint holds the material point of the body that was under the mouse when it was made: its error is the vector from the mouse to where that point is now, zero as long as neither moved. Any body can be held without an exception. The body is pulled by a single impulse at that point; no other body moves and no position is corrected. After a solve the velocity of the point plus the impulse given so far covers a tenth of the way to the mouse per step, and a body at rest goes towards the mouse without going faster than that.", "quantifier": "all bodies, poses, masses, mouse positions, time steps and sequences of solves interleaved with other constraints", "why_tests_cant": "The behaviour is a relation between arbitrary poses and sequences of calls; a test sees a few drags.", "anchors": ["include/Simu/app/MouseConstraint.hpp: MouseConstraintFunction, MouseConstraint", "include/Simu/physics/ConstraintSolver.hpp: EqualitySolver"]}
{"id": "C75", "title": "Passive constraints add no kinetic energy", "statement": "In a step of the solver without warm starting, a group of bodies whose active constraints stay within the group and are passive (hinges, welds, rotation constraints and rods without restitution and with non-negative damping; contacts without restitution and friction) has no more kinetic energy afterwards than before: however many iterations are made, into however many islands the group falls, whatever the poses and velocities and whatever happens in the rest of the world. Immovable bodies of the group stay at rest.", "quantifier": "all worlds of library constraints, groups, poses, velocities, masses, numbers of iterations and time steps", "why_tests_cant": "Whether energy grows depends on the order and number of iterations over coupled constraints; a test observes a few trajectories.", "anchors": ["include/Simu/physics/Island.hpp: Island", "include/Simu/physics/ConstraintSolver.hpp: EqualitySolver, LimitsSolver", "include/Simu/physics/Constraint.hpp: ContactConstraint"]}
{"id": "C76", "title": "Bodies in flight follow the parabola", "statement": "In a world with gravity g, a group of awake bodies whose active joints and contacts are between its own bodies (dominances 1) has after n calls of World::step(dt) the momentum \u03a3mv + n dt M g, and its centre of mass is at c + n dt v + dt\u00b2 n(n+1)/2 g: whatever its joints and contacts do, whatever happens to the other bodies, constraints and settings between and during the steps, and whatever the numbers of iterations. A body alone also keeps its angular velocity and turns by n dt times it. Steps keep masses, inertias, dominances and the place of the centroid in the body. If the joints of the group can be solved (C73) and sleeping is off, the steps go on for ever.", "quantifier": "all numbers of steps, groups, worlds of library constraints, poses, velocities, colliders, gravities, settings", "why_tests_cant": "A trajectory of arbitrary length in an arbitrary world; a test runs a few steps of a few worlds.", "anchors": ["src/Simu/physics/World.cpp: World::step, World::applyForces, World::updateBodies", "include/Simu/physics/Island.hpp: Island, solveIslands", "include/Simu/physics/ForceField.hpp: Gravity, LinearField"]}
{"id": "C77", "title": "Bodies in flight never gain mechanical energy", "statement": "Without warm starting, a group of awake bodies falling in a field of gravity g, whose active joints and contacts are between its own bodies and passive (as in C75), loses in every call of World::step(dt) at least dt\u00b2 M |g|\u00b2 / 2 of its mechanical energy (kinetic plus potential), which is what the integration scheme loses for a single falling body; so after n steps at least n times that, whatever the constraints do and whatever happens to the rest of the world.", "quantifier": "all numbers of steps, groups, worlds of library constraints, poses, velocities, colliders, gravities, numbers of iterations", "why_tests_cant": "Energy drift appears over long runs and coupled constraints; a test observes a few trajectories.", "anchors": ["src/Simu/physics/World.cpp: World::step, World::applyForces", "include/Simu/physics/Island.hpp: Island, solveIslands", "include/Simu/physics/ForceField.hpp: Gravity"]}
{"id": "C78", "title": "Bodies at rest stay at rest", "statement": "A group of bodies that do not move, on which no field acts and whose active joints and contacts are between its own bodies and satisfied (hinges whose points coincide, limits that are respected, contacts not deeper than what is left uncorrected, without impulses stored from earlier), is left exactly where it is by World::step: positions, velocities and the world-space geometry of colliders are the same after any number of steps, whatever happens elsewhere in the world. If sleeping is enabled, all its bodies are asleep once the steps add up to the inactivity delay.", "quantifier": "all groups, all worlds of library constraints, poses, settings, numbers of iterations and of steps", "why_tests_cant": "Jitter of resting bodies depends on the constraints combined, on iterations and on the poses; tests try few.", "anchors": ["src/Simu/physics/World.cpp: World::step, World::applyForces, World::updateBodies", "include/Simu/physics/Island.hpp: Island, solveIslands", "include/Simu/physics/ConstraintSolver.hpp: EqualitySolver, InequalitySolver, LimitsSolver", "include/Simu/physics/Constraint.hpp: ContactConstraint"]}
{"id": "C79", "title": "Groups of bodies do not disturb each other", "statement": "Take two worlds that contain the same group of awake bodies in the same state (positions, velocities, colliders, joints and contacts with their stored impulses), stepped with the same settings and force fields. If no active joint or contact leads from a body of the group to another body, except to bodies that nothing can move (a common ground), then after every step the group is in exactly the same state in both worlds, whatever other bodies, joints and contacts they contain and in whatever order these come.", "quantifier": "all pairs of worlds of library constraints, groups, states, settings, numbers of iterations and of steps", "why_tests_cant": "It compares whole worlds of any size; hidden sharing (indices into the vectors of an island, states left by an earlier island, order of visits) shows up only in particular combinations.", "anchors": ["include/Simu/physics/Island.hpp: Island, solveIslands", "src/Simu/physics/World.cpp: World::step, World::applyForces, World::updateBodies", "include/Simu/physics/ConstraintSolver.hpp: EqualitySolver, InequalitySolver, LimitsSolver", "include/Simu/physics/ConstraintFunction.hpp: ConstraintFunctions", "include/Simu/physics/Constraint.hpp: ContactConstraint"]}
{"id": "C80", "title": "A simulation runs the same wherever it is placed", "statement": "Take a group of bodies with its colliders, joints, motors, mouse and contacts, and the same group translated by some vector in another world, where the regions of force fields and the point the mouse pulls to are translated too. If no active joint or contact leads from the group to other bodies (except to bodies that nothing can move, which are then translated with it), then, up to rounding, after every step positions in the second world are those of the first one translated by that vector, and orientations, velocities, sleep, stored impulses and contact manifolds are the same. Collision tests, distances and penetrations of geometries are the same too.", "quantifier": "all translations, groups, states, library constraints, force fields, settings, numbers of iterations and of steps", "why_tests_cant": "It compares runs at all places; code that uses a world coordinate where a relative one is meant works in tests placed near the origin.", "anchors": ["include/Simu/physics/Island.hpp: Island, solveIslands", "src/Simu/physics/World.cpp: World::step, World::applyForces, World::updateBodies", "include/Simu/physics/ConstraintSolver.hpp: EqualitySolver, InequalitySolver, LimitsSolver", "include/Simu/physics/ConstraintFunction.hpp: HingeConstraintFunction", "include/Simu/physics/Constraint.hpp: ContactConstraint", "include/Simu/physics/ContactManifold.hpp: ContactManifold", "include/Simu/math/Gjk.hpp: Gjk"]}
{"id": "C81", "title": "A common velocity does not change how bodies interact", "statement": "Take a group of awake bodies that only interact with each other, through active joints and contacts between two bodies, and the same group in another world with one more vector added to all its velocities. Then, up to rounding, after every step the orientations, angular velocities, stored impulses and contact manifolds are the same in both worlds, velocities differ by that vector and positions by the vector times the elapsed time.", "quantifier": "all velocities added, translations, groups, states, two-body library constraints, settings, numbers of iterations and of steps", "why_tests_cant": "It compares runs at all velocities; a term that depends on absolute instead of relative velocity (restitution, damping, friction) is only visible for particular motions.", "anchors": ["include/Simu/physics/Island.hpp: Island, solveIslands", "src/Simu/physics/World.cpp: World::step, World::applyForces, World::updateBodies", "include/Simu/physics/ConstraintSolver.hpp: EqualitySolver, InequalitySolver, LimitsSolver", "include/Simu/physics/ConstraintFunction.hpp: HingeConstraintFunction", "include/Simu/physics/Constraint.hpp: ContactConstraint", "include/Simu/physics/ContactManifold.hpp: ContactManifold", "include/Simu/math/Gjk.hpp: Gjk"]}
{"id": "C82", "title": "Only the selected scene runs, and it fills the window", "statement": "Whatever scenes are registered and selected, and whatever the user does in the windows of the application, exactly one scene is the current one once a scene was registered; it knows the application and may draw, the others do not. Each frame steps the world of the current scene exactly once, by the duration of the frame limited to 1/60 s times its speed, or by zero if it is paused. Other scenes are not touched by frames, keys, scrolling or resizing. The view of the current scene has the size of the window at a tenth of a unit per pixel, also right after it was selected. No sequence of events, even after a scene failed to initialise or to step, makes the application use a scene that has no renderer.", "quantifier": "all histories of registrations, selections, frames, keys, scrolls, resizes and clicks, including failing ones", "why_tests_cant": "The state is hidden in the application and in static variables; a pointer that is not reset on one path shows only after a particular order of selections.", "anchors": ["src/Simu/app/Application.cpp: Application::changeScene, Application::doGui, Application::run, Application::windowResizeCallback, Application::keypressCallback", "include/Simu/app/Application.hpp: Application::registerScene", "include/Simu/app/Scene.hpp: Scene"]}
{"id": "C83", "title": "Coming back to a scene finds it as it was left", "statement": "A scene that the user leaves for another one and later selects again is as it was when it was left: its world, its speed, whether it is paused, its current tool, the place and zoom of its view and the settings of its world. The application only initialises a scene the first time it becomes the current one.", "quantifier": "all histories before, between and after the two selections", "why_tests_cant": "It speaks about what any history between leaving and returning must not change.", "anchors": ["src/Simu/app/Application.cpp: Application::changeScene, Application::doGui, Application::run, Application::windowResizeCallback, Application::keypressCallback", "include/Simu/app/Application.hpp: Application::registerScene", "include/Simu/app/Scene.hpp: Scene"]}
{"id": "C84", "title": "The window of the engine settings shows and sets the settings in force", "statement": "While the window of the engine settings is shown, the numbers of iterations and the warm starting it shows are those the world of the current scene uses, and changing one of them changes that one only. Opening the window changes nothing by itself. While it is not shown no frame changes the settings.", "quantifier": "all histories, scenes, settings given by the program and values entered", "why_tests_cant": "The values shown are static variables shared by all scenes and all applications; which histories make them differ from those in force is a question about all histories.", "anchors": ["src/Simu/app/Application.cpp: Application::changeScene, Application::doGui, Application::run, Application::windowResizeCallback, Application::keypressCallback", "include/Simu/app/Application.hpp: Application::registerScene", "include/Simu/app/Scene.hpp: Scene", "include/Simu/physics/World.hpp: World::updateSettings, World::Settings"]}
{"id": "C85", "title": "Colliders that overlap get a contact that pushes them apart along the shortest way", "statement": "When two convex colliders overlap by more than the tolerance of their contact, updating the contact ends without error, gives one or two contact points, and the unit normal is that of a shortest translation that separates the colliders, towards the first body; at each point the overlap along the normal is between zero and the length of that translation, which it reaches at one of them when the deepest vertex is inside the other collider. Colliders that do not touch, or overlap by less than the tolerance, have no contact point.", "quantifier": "all strictly convex polygons with at least three vertices, positions, previous states of the contact and tolerances", "why_tests_cant": "Whether a contact is found depends on the shapes of both polygons near the point of contact; tests use boxes, for which it always is.", "anchors": ["include/Simu/physics/ContactManifold.hpp: ContactManifold::update, computeContactEdge, computeContacts", "include/Simu/math/Edges.hpp: Edge::clipInside", "include/Simu/math/Gjk.inl.hpp: Gjk::penetration"]}
{"id": "C86", "title": "Constraints act on the masses their bodies have", "statement": "Whatever the order in which bodies, colliders and constraints are made, an impulse that a constraint applies changes the velocities of its two bodies as the masses and inertias they report at that time say, scaled by their dominance, and those of no other body; opposite impulses on bodies of dominance 1 keep the total momentum.", "quantifier": "all histories of making bodies, adding and removing colliders, making constraints and moving bodies", "why_tests_cant": "The masses are copied when the constraint is made; whether a copy is stale depends on the whole history.", "anchors": ["include/Simu/physics/Bodies.inl.hpp: Bodies::Bodies, Proxies::applyImpulse", "include/Simu/physics/World.hpp: World::makeBody, World::makeConstraint", "src/Simu/physics/Body.cpp: Body::addCollider, Body::removeCollider"]}
{"id": "C87", "title": "Colliders follow their body and keep their shape", "statement": "At any time of the life of a body, as long as no call on it threw, and after every step even if one did, each of its colliders is the polygon that was asked for placed by the rigid transform of the body, with the bounding box of these vertices; all its colliders move as one (distances and signed areas between any of their vertices never change). Adding valid colliders and removing some never throws. So two convex colliders without obtuse angles that overlap by more than the tolerance get contacts along the shortest way out whatever their bodies went through.", "quantifier": "all histories of additions, removals, impulses, changes of velocity and steps with any displacements", "why_tests_cant": "Vertices are recomputed from the local polygon at each update; that no sequence of calls leaves a collider behind or distorts it is a statement on all histories.", "anchors": ["include/Simu/physics/Body.hpp: Body::update, Position::advance", "src/Simu/physics/Body.cpp: Body::addCollider, Body::removeCollider", "include/Simu/physics/Collider.hpp: Collider::update", "include/Simu/physics/Island.hpp: Island::endSolve, Island::integrateBodies", "include/Simu/physics/Bodies.hpp: SolverProxy::advancePos"]}
{"id": "C88", "title": "The box spawner makes the boxes its window shows", "statement": "A box made by the spawner is one new body at rest, centred where it was asked for, with the dimensions, orientation, material, mass and inertia that the settings say. Whatever the user does with the sliders and the mouse, nothing throws, each press of the left button adds exactly one body of positive mass, and nothing else does. A slider sets its own value only, and a frame in which the user touches nothing changes no setting.", "quantifier": "all settings, all sequences of window frames within slider ranges and mouse events, all worlds", "why_tests_cant": "Conversions between radians and degrees, and between colour formats, are made in every frame; that settings survive them is a statement on all values.", "anchors": ["include/Simu/app/Tool.hpp: BoxSpawner", "src/Simu/app/Tool.cpp: BoxSpawner::makeBox, BoxSpawner::doGui, BoxSpawner::onMousePress"]}
{"id": "C89", "title": "Demonstration scenes start without overlaps", "statement": "For all their settings, the scenes with stacks, a pyramid, a tower and a pendulum can be built without an exception; they have the right number of bodies, each of positive mass and, except for the pushed balls, at rest; no two of them overlap. The strings of the pendulum have the length of the setting and hang from the bar.", "quantifier": "all numbers of stacks and balls, heights, spacings, radii, lengths and numbers of vertices of a ball", "why_tests_cant": "A scene is looked at for a few settings; an overlap at the start, which makes the scene burst, may appear for others.", "anchors": ["demos/BoxStacks.cpp: BoxStacks::init", "demos/Pyramid.cpp: Pyramid::init", "demos/Tower.cpp: Tower::init, Tower::makeSlab", "demos/NewtonPendulum.cpp: NewtonPendulum::init"]}
{"id": "C90", "title": "A simulation does not depend on memory addresses", "statement": "Contacts are kept in a hash table keyed by addresses of colliders, so the order in which they are visited differs from run to run. Two runs of the same program nevertheless have the same outcomes, and at each moment the same bodies, constraints and contacts with the same states; every body lists its constraints and contacts in the same order, which is the order in which the solver uses them.", "quantifier": "all programs of calls to a world that keep to its preconditions, and all orders of the hash table before every call", "why_tests_cant": "Two runs of a test usually get the same addresses; a dependence on their order shows only in another process, with another allocator or another library.", "anchors": ["include/Simu/physics/World.hpp: ContactList, inContacts", "src/Simu/physics/World.cpp: World::step, World::cleanup, World::updateBodies, registerContact"]}
{"id": "C91", "title": "Contacts are right whatever happened before", "statement": "After every step of a world, two colliders are in contact exactly if they belong to two different living bodies, the bounding boxes that they now have meet, and no living constraint disables contacts between the two bodies; in particular no two polygons that touch are missed. This holds after any history of making, changing, removing and destroying bodies, colliders and constraints, of steps that fail and of clearing the world; the spatial tree then always lists exactly the existing colliders with their current boxes, and no operation finds it in an undefined state.", "quantifier": "all histories of allowed calls, all boxes at each step, all choices of the tree", "why_tests_cant": "Removals, failed steps and rebuilt trees combine in too many ways; a stale element of the tree shows as a missing or ghost contact much later.", "anchors": ["src/Simu/physics/World.cpp: World::step, World::cleanup, World::updateBodies, World::removeCollider", "include/Simu/physics/World.hpp: addCollider, clear", "include/Simu/physics/RTree.hpp: RTree, updateAndCollide"]}
{"id": "C92", "title": "The picture of a body is its shape", "statement": "After each step a visible body is drawn without failing: for each of its colliders, exactly the points of the smallest box around it, then exactly the points of the convex polygon that was given, placed where the body is, and no point is painted twice by one polygon (colors may be transparent). A visible constraint is drawn as a line of the width of the renderer between its two anchors, a contact as a point on each body and a line along its normal; drawing them does not make the step fail.", "quantifier": "all lives of a body (calls, failed calls, steps), all convex polygons, all points of the plane; all anchors and contacts", "why_tests_cant": "What is shown is the union of triangles of a fan around a computed center; coverage without gaps nor overlaps is a statement on all points of the plane and all polygons, and the failing configurations have measure zero.", "anchors": ["include/Simu/app/VisiblePhysics.hpp: VisibleBody, VisibleContactConstraint, VisibleDistanceConstraint, VisibleMouseConstraint", "src/Simu/app/Renderer.cpp: drawPolygon, drawLine, drawPoint", "include/Simu/physics/Collider.hpp: properties, vertexView, boundingBox"]}
{"id": "C93", "title": "The buttons of the scene controls do what their keys do", "statement": "Whatever happened to the application before, the buttons \"-\", \"+\", \"Pause (P)\"/\"Play (P)\" and \"Restart (R)\" of the scene controls do to the current scene exactly what pressing the keys minus, equal, P and R does, and touch nothing else. The play speed stays positive, and clicks on \"-\" and \"+\" cancel out in any order.", "quantifier": "all histories of an application (scenes registered and selected, frames, keys, clicks, resizing, failures) and all sequences of clicks", "why_tests_cant": "Two user interfaces act on the same scene through different code, and one of them keeps a state of its own; whether they agree depends on the whole history.", "anchors": ["src/Simu/app/Application.cpp: doGui, keypressCallback", "src/Simu/app/Scene.cpp: onKeypress", "include/Simu/app/Scene.hpp: setPlaySpeed, pause, resume, reset"]}
{"id": "C94", "title": "Only the ratios of masses matter", "statement": "If the densities of all materials of a group of bodies that touch and are joined only to each other (or to immobile bodies) are multiplied by the same positive number, and with them the forces of force fields and motors that are given as forces, then nothing that can be seen changes: after any number of steps the bodies have the same positions, velocities and angular velocities, are asleep or awake as before, and calls that fail do so as before; only impulses, masses and inertias are multiplied by that number.", "quantifier": "all positive factors, all groups of bodies with their colliders, constraints and contacts in any state, all rests of the world and all numbers of steps with any settings", "why_tests_cant": "The claim compares two runs for every factor and every scene; masses enter dozens of formulas (effective masses, warm starting, friction, clamping, mass properties), and one of them that mixes powers of the mass only shows for some scenes.", "anchors": ["include/Simu/physics/ConstraintSolver.hpp: EqualitySolver, InequalitySolver, LimitsSolver", "include/Simu/physics/Constraint.hpp: ContactConstraint", "include/Simu/app/MouseConstraint.hpp: MouseConstraint", "include/Simu/math/Matrix.inl.hpp: solveInequalities", "include/Simu/physics/Collider.hpp: Colliders, MassProperties", "include/Simu/physics/Bodies.hpp: Bodies"]}
{"id": "C95", "title": "R-trees keep their memory and iterators sound", "statement": "Whatever calls are made on an RTree with iterators of elements that are still in it (insert, erase, update, updateAndCollide, clear), the tree never uses a node that was freed or never allocated; the iterator returned by an insertion stays valid and leads to the same element with its latest bounds until the element is removed, also when nodes are rotated or the tree is rebuilt; iterating visits each element once; the tree never holds more than about twice as many nodes as elements and touches no other memory; its destructor gives everything back, and each element is destroyed exactly once. erase returns the iterator that followed the erased one, so that loops of erasures are safe and empty the tree.", "quantifier": "all histories of calls with valid iterators, all allocators that hand out unused addresses, all memories at the start, all element values and boxes, all tie-breaks of the queue, all arithmetics with finite areas", "why_tests_cant": "Memory errors depend on the shapes that trees reach after long histories and on which addresses the allocator reuses; a test only sees crashes of the histories it runs, and a dangling or misplaced pointer may be harmless there.", "anchors": ["include/Simu/physics/RTree.hpp: RTree, updateAndCollide, erase, insert, update, clear, deleteNode, recycle", "include/Simu/physics/RTree.inl.hpp: Node, replaceBy, operator++"]}
{"id": "C96", "title": "A joint acts the same whichever of its two bodies is named first", "statement": "Making a hinge, weld, rotation or distance constraint (or any tuple of them) with its two bodies in the other order, and with the points and dominances that belong to them exchanged accordingly, changes nothing that can be seen: the constructor throws in the same cases, and after any number of steps all bodies have the same positions and velocities and are asleep or awake as before, and a step fails if and as it did before. Any number of the joints of a world may be turned around this way.", "quantifier": "all worlds, all choices of joints to turn around among all joints between two different bodies, all states, all numbers of steps with any settings, and any changes of bodies and contacts between the steps", "why_tests_cant": "The claim compares two runs for every scene and every choice of joints; the order of bodies enters Jacobians, signs of impulses, inverse masses, the structural test and the traversal of islands, and a wrong sign in one of them only shows in scenes that use it.", "anchors": ["include/Simu/physics/Constraint.hpp: ConstraintImplementation, HingeConstraint, WeldConstraint, RotationConstraint", "include/Simu/physics/DistanceConstraint.hpp: DistanceConstraintFunction, DistanceConstraint", "include/Simu/physics/ConstraintFunction.hpp: HingeConstraintFunction, RotationConstraintFunction", "include/Simu/physics/ConstraintSolver.hpp: EqualitySolver, InequalitySolver, LimitsSolver"]}
{"id": "C97", "title": "A sleeping body wakes when what holds it changes", "statement": "With sleeping enabled, a body that sleeps stays in the same constraints and contacts and keeps the same colliders for as long as it sleeps: making a constraint with it, killing one of its constraints or contacts or the body at the other end, touching something new, adding or removing a collider, or making a force field whose domain it is in wakes it, at the latest before the next step applies forces, so that it gets them. Killing a force field that acts on it wakes it too. While sleeping is disabled no body sleeps.", "quantifier": "all histories of calls and steps of a world, including steps that throw, any reports of the tree, any velocities left by the solver and any settings", "why_tests_cant": "A body that is not woken hangs in the air and no error is reported. Each way of losing a support goes through other code (cleanup of contacts, cleanup of constraints, destruction of bodies and colliders), and the claim is about every order in which these can happen while the body sleeps.", "anchors": ["include/Simu/physics/World.hpp: World, makeConstraint, makeForceField, updateSettings", "src/Simu/physics/World.cpp: cleanup, makeContactConstraint, applyForces, updateBodies", "src/Simu/physics/Body.cpp: addCollider, removeCollider", "include/Simu/physics/Body.hpp: wake, isAsleep, canSleep"]}
{"id": "C98", "title": "Boxes and regions may be unbounded, and undefined ones cover nothing", "statement": "Comparing two matrices compares their elements as numbers are compared, also if these are infinite or NaN. A bounding box may have infinite bounds, for instance as the region of a force field or of a query: it is valid exactly if its bounds are in order, two boxes overlap exactly if they share a point, one contains the other exactly if it has all its points, the union is the least box around both, and a query of a region finds exactly the elements with a point in it. A box with a NaN bound covers nothing, so it is invalid and overlaps nothing.", "quantifier": "all boxes whose bounds are any finite numbers, infinities or NaN, all matrices of any size, all trees and regions", "why_tests_cant": "Tests use finite boxes. The tests of overlap and order are written so that some NaN and infinite cases come out right by accident (a NaN distance counts as overlapping), which only a case analysis of all 4^4 kinds of bounds per direction settles.", "anchors": ["include/Simu/math/Matrix.inl.hpp: operator<=, operator>=, all, any", "include/Simu/math/Interval.hpp: overlaps, contains", "include/Simu/physics/BoundingBox.hpp: isValid", "src/Simu/physics/BoundingBox.cpp: overlaps, contains, combined", "include/Simu/physics/RTree.hpp: forEachIn"]}
{"id": "C99", "title": "Applications give back what they take from the window system and the graphics driver", "statement": "Making an application either succeeds, and then everything it is asked to draw is drawn, or throws, and then it holds nothing anymore: no window, no graphics objects, no callbacks. An application that is run for any number of frames and then ended gives back its window and all its graphics objects, never calls the graphics driver without a context, and leaves the window system as it found it, so that another application can be made. A renderer that is destroyed gives back all its graphics objects.", "quantifier": "all drivers (any names of objects, any failure of initialisation, window, compilation or link), all numbers of frames, events and batches, all sequences of applications", "why_tests_cant": "The failures cannot be provoked in a test environment (and tests have no window at all), what is left behind is invisible to the program, and the driver is free in the names it gives.", "anchors": ["src/Simu/app/Renderer.cpp: compileShader, compileShaderProgram, OpenGlRenderer, flush", "include/Simu/app/Renderer.hpp: OpenGlRenderer", "src/Simu/app/Application.cpp: Application, run, show", "include/Simu/app/Application.hpp: Application"]}
{"id": "C100", "title": "Objects in pools live exactly as long as their pointers", "statement": "An object made by makeUnique is constructed once, in memory that nothing else uses, and destroyed once: when its pointer is reset, gets another object or ends, whether the pointer is held as the class it was made for or as one of its base classes, and also if the allocator it was made with is gone by then. When all pointers and allocators are gone all memory is given back; and the memory of an object that is destroyed, or whose constructor throws, can be used again.", "quantifier": "all histories of allocators being made, copied, assigned and ended and of objects of any classes being made, converted and destroyed, including constructors that throw, and any addresses given by the system", "why_tests_cant": "The lifetimes of allocators, copies in deleters and objects interleave in unboundedly many ways, memory that is lost or used twice only shows as corruption later, and the tests hold no pointer as a second base class.", "anchors": ["include/Simu/utility/Memory.hpp: makeUnique, UniquePtr, Deleter, FreeListAllocator, allocate, deallocate", "include/Simu/physics/World.hpp: makeBody, makeObject"]}
{"id": "C101", "title": "Slow motion shows the same film", "statement": "If all velocities of a group of bodies are multiplied by a factor, forces, accelerations and what motors are given by the matching powers of it, the sleep thresholds by it, and the sleep delay and the duration of each step are divided by it, then after every step the bodies are at the same places as they would be otherwise, asleep or awake as they would be, and as much faster. The result of a simulation does not depend on the unit of time.", "quantifier": "all positive factors, all groups of bodies with any joints, motors, limits, mouse constraints and contacts without restitution, any force fields, settings and numbers of steps, and any rest of the world", "why_tests_cant": "The durations of steps appear in the bias of constraints, the bounds of motors, the integration and the clocks of sleep; each place has to have the right power of it, and tests use one time step.", "anchors": ["include/Simu/physics/ConstraintSolver.hpp: computeRhs, EqualitySolver, InequalitySolver, LimitsSolver", "include/Simu/physics/Constraint.hpp: ContactConstraint, computeBounce, restitutionTreshold", "include/Simu/physics/Motors.hpp: MotorFunctionBase, clampLambda, bias", "src/Simu/physics/World.cpp: World::step, applyForces", "include/Simu/physics/Body.hpp: applyImpulse, updateTimeImmobile"]}
{"id": "C102", "title": "When the iterations have settled, the laws of mechanics hold", "statement": "When another velocity iteration would change nothing in an island, then joints do not move against their constraint (damped ones give way in proportion to their impulse), motors run at their speed or exert their largest impulse, limits and contacts push but do not pull, and only where the bodies do not part by themselves, contacts separate with the restitution asked for, and friction stays in its cone, stops sliding if it can and opposes it at full strength otherwise. Conversely, when all of this holds, no further iteration changes anything, so more iterations give the same step.", "quantifier": "all islands with any joints, motors, inequalities, limits, mouse constraints and contacts, any velocities, with or without warm starting, after any number of iterations", "why_tests_cant": "The solver only sees one constraint at a time; that a fixed point of the sweep satisfies all constraints at once, and that every solution of the laws is a fixed point, are statements over all islands.", "anchors": ["include/Simu/physics/ConstraintSolver.hpp: EqualitySolver, InequalitySolver, LimitsSolver, updateLambda, computeRhs", "include/Simu/physics/Constraint.hpp: ContactConstraint, solveVelocities", "include/Simu/physics/Island.hpp: solveIslands", "include/Simu/physics/Motors.hpp: clampLambda"]}
{"id": "C103", "title": "Settled velocities are unique", "statement": "Once the velocity iterations of an island without friction and without dominance have settled, the velocities of its bodies are determined by their positions, their velocities before and the constraints alone: it makes no difference what the solvers remember of earlier steps, whether warm starting is enabled, how many iterations there were, and in which order the constraints are solved.", "quantifier": "all islands with any joints, motors, inequalities, limits, mouse constraints and frictionless contacts, any remembered impulses, any two orders of the constraints, any numbers of iterations, with or without warm starting", "why_tests_cant": "Impulses of redundant constraints are not unique, and two runs take different ways. That the velocities nevertheless agree is a statement about all pairs of runs.", "anchors": ["include/Simu/physics/ConstraintSolver.hpp: EqualitySolver, InequalitySolver, LimitsSolver, warmstart, updateLambda", "include/Simu/physics/Constraint.hpp: ContactConstraint, warmstart, solveVelocities", "include/Simu/physics/Island.hpp: solveIslands", "include/Simu/physics/Bodies.hpp: dominance"]}
{"id": "C104", "title": "Velocity iterations of joints converge", "statement": "In an island of joints without dominance, every velocity iteration brings the bodies nearer to the velocities at which all joints are satisfied: the kinetic energy of the difference shrinks at each iteration by a factor below one that is the same for all iterations. More iterations are never worse, and with enough of them the velocities are as near as one likes, with and without warm starting.", "quantifier": "all islands of any number of bodies and any joints (damped or not, redundant or not), all remembered impulses, all numbers of iterations, all tolerances", "why_tests_cant": "Tests run a few iterations of a few islands. That the factor is below one for every arrangement, also when joints are redundant and the matrix of the island is singular, needs a proof.", "anchors": ["include/Simu/physics/ConstraintSolver.hpp: EqualitySolver, solveVelocity, updateLambda, computeRhs, warmstart", "include/Simu/physics/Island.hpp: solveIslands", "include/Simu/physics/Bodies.hpp: dominance, applyImpulse"]}
{"id": "C105", "title": "Velocity iterations of frictionless contacts, limits and motors converge", "statement": "In an island without friction and without dominance, with contacts of one or two points, limits, motors, joints and undamped inequalities of one row in any mixture, the velocity iterations approach the settled velocities: with enough iterations the velocities of all bodies are as near as one likes, with and without warm starting, whatever impulses are remembered. Moreover the constraint that is solved last in an iteration is satisfied exactly after it (dominance allowed).", "quantifier": "all islands of any number of bodies and such constraints, all remembered impulses, all numbers of iterations, all tolerances", "why_tests_cant": "Clamping to one-sided impulses makes the iteration non-linear; tests run a few iterations of a few stacks. That no arrangement, however redundant, cycles or stalls away from the settled velocities needs a proof.", "anchors": ["include/Simu/physics/Constraint.hpp: ContactConstraint, solveVelocities", "include/Simu/physics/ConstraintSolver.hpp: EqualitySolver, InequalitySolver, LimitsSolver, solveVelocity, updateLambda", "include/Simu/physics/Island.hpp: solveIslands"]}
{"id": "C106", "title": "Structures in equilibrium stand still", "statement": "A structure of bodies at rest, held by joints (without limits on their impulses) and contacts whose remembered impulses balance gravity and all other forces, stands still: with warm starting, after any number of steps, with any number of velocity and position iterations, and whatever happens elsewhere in the world, its bodies are exactly where they were, do not move, and its constraints bear the same impulses. Friction may hold the structure as long as the impulses are within the friction cone, contacts may have restitution as long as the forces of one step are too weak for a bounce, and statically indeterminate structures are included.", "quantifier": "all structures of any number of bodies, joints and contacts, all balanced impulses, all forces, all numbers of iterations and steps", "why_tests_cant": "A simulation shows a stack that does not visibly drift for some seconds. That an equilibrium is an exact fixed point of force application, warm starting, both iterations, integration and position correction, for every structure and every distribution of the impulses, needs a proof.", "anchors": ["include/Simu/physics/Island.hpp: solveIslands", "include/Simu/physics/Constraint.hpp: ContactConstraint, warmstart, solveVelocities, solvePositions", "include/Simu/physics/ConstraintSolver.hpp: EqualitySolver, warmstart, solveVelocity, updateLambda", "include/Simu/physics/World.hpp: step"]}
{"id": "C107", "title": "Sleeping structures stay where they are", "statement": "A structure that came to rest in equilibrium and fell asleep (its bodies do not move, its joints and contacts have nothing to correct) stays exactly where it is as long as it sleeps: no step moves it, whatever forces act, whatever impulses its constraints remember, whatever the numbers of iterations, and whatever happens elsewhere in the world.", "quantifier": "all structures of any number of bodies, joints and contacts, all remembered impulses, all forces, all numbers of iterations and steps", "why_tests_cant": "Sleeping is meant to freeze a scene; a test of one body that sleeps on the ground shows nothing of structures with several constraints, and movements of less than a thousandth of a length unit per step are below the tolerance of a test. That nothing moves at all needs a proof, and that something does needs an exact computation.", "anchors": ["include/Simu/physics/Island.hpp: solveIslands, applyVelocityConstraints", "src/Simu/physics/World.cpp: applyForces", "include/Simu/physics/ConstraintSolver.hpp: EqualitySolver, warmstart, solveVelocity"]}
{"id": "C108", "title": "The tumbler is closed and fills up to its limit", "statement": "The demonstration Tumbler starts with a square drum around the origin, whose mass and inertia are those of its four walls. The drum has no gap: however it is placed and turns, nothing that moves continuously gets from its inside to the outside without touching a wall, and its inside is empty. After each step that is not paused a box appears at rest in the middle of the drum, as long as there are fewer than the slider says: never more boxes than such steps, never more than the highest limit, exactly as many as the smaller one of the two if the limit is not changed; boxes are not taken away until the scene is reset, and a reset starts again from an empty drum.", "quantifier": "all histories of steps, pauses, limits and resets; all continuous paths; all placements of the drum", "why_tests_cant": "The number of boxes is visible after thousands of steps only and depends on the order of pauses and changes of the slider; that there is no gap between the walls concerns all paths.", "anchors": ["demos/Tumbler.cpp: Tumbler::init, Tumbler::postStep, Tumbler::doGui", "demos/Demos.hpp: Tumbler, maxCount_", "include/Simu/app/Scene.hpp: reset, step, isPaused"]}
{"id": "C109", "title": "A motor turns a body that nothing pushes at its speed, whatever the load", "statement": "A rotation motor made for a single body of dominance zero (like the drum of a tumbler or a driving wheel) changes the turning speed of the body evenly, by its greatest torque times the time step over the inertia, until the body turns at the speed of the motor; then it keeps exactly that speed. If the torque suffices for this in one step, the body turns by the same angle in every step. Gravity, joints and contacts with other bodies, however many and heavy, have no influence on this. The motor does not push the body: its centroid moves on as if the motor were not there, and stays if the body did not move; its points then go around the centroid and are where they were after whole turns (the drum of the tumbler: every 2400 steps of a 60th of a second).", "quantifier": "all motors, inertias, time steps and settings with at least one iteration, all numbers of steps, all other bodies, joints, contacts and forces, which may change between the steps", "why_tests_cant": "The load may be anything that touches the body, in every order of solving, with and without warm starting; a test has one load and a tolerance that hides slow losses of speed.", "anchors": ["include/Simu/physics/Motors.hpp: RotationMotor", "include/Simu/physics/Bodies.hpp: singleBody", "include/Simu/physics/Island.hpp: solve", "demos/Tumbler.cpp: Tumbler::init"]}
{"id": "C110", "title": "Pushing a body does what mechanics says, and wakes it", "statement": "An impulse (or a force for some time) on a body, at any point, changes its momentum by the impulse, its angular momentum about every fixed point by the moment of the impulse about that point, and its kinetic energy by the work of the impulse: the impulse times the mean velocity of the pushed point before and after. Several pushes add up and their order does not matter. The body is awake afterwards and is still where it was. Setting a velocity or an angular velocity also wakes the body and leaves the other one.", "quantifier": "all bodies with mass and inertia, all sequences of pushes at all points, all reference points", "why_tests_cant": "The laws are about every body, point and reference point; a push of a sleeping body that does not wake it is only visible in later steps.", "anchors": ["include/Simu/physics/Body.hpp: applyForce, applyImpulse, setVelocity, setAngularVelocity, wake"]}
