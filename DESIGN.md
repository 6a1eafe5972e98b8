# Formal model of Simox: design

Source: `/repo` (Simox, C++), read as text; never built or run here.
Prover: Lean 4.33.0, Mathlib modules imported one at a time where needed.
All modules live in `lean/Verif/`, imported from `lean/Verif.lean`.

## Trusted base

* Lean's kernel.
* Axioms: only `propext`, `Classical.choice`, `Quot.sound` (checked with `#print axioms`;
  listed per area in the table at the end). No own axioms, no `sorry`, no `native_decide`,
  no `bv_decide`.
* The transcription of the C++ into Lean definitions. Every definition carries a comment with the
  file and lines it models, and says where it simplifies.
* Conventions that are part of the transcription (and hence of the trusted base):
  * **Floats.** `float`/`double` arithmetic is modelled by exact arithmetic: an ordered field
    (usually `ℚ` or `ℝ`), or an abstract metric. Rounding, NaN and infinities are not modelled,
    except where a definition says so. `FLT_MAX` is modelled as a top element or a named constant.
  * **Integers.** `unsigned char` is `Nat` below 256 / `Fin 256`, `unsigned int` index arithmetic is
    `Nat` (assumption: no 32-bit overflow, i.e. the memory the code allocates really exists) unless
    a definition models the wrap-around explicitly (`mod 2^32`), which is done where the wrap-around
    is reachable with small inputs.
  * **Pointers.** `shared_ptr` identity is an identifier (`Nat`); null is `Option.none`.
  * **Exceptions / asserts.** `THROW_...` is an explicit error outcome. `VR_ASSERT`/`SABA_ASSERT`
    abort in debug builds and are nothing in release builds; they appear as preconditions.
  * **Undefined behaviour** (out-of-bounds access, iterator invalidation, null dereference) is a
    distinct outcome (`ub`) of the model, never a default value.
  * **Randomness** is an arbitrary stream given to the model, so theorems hold for every stream.
  * **Collision checking, forward kinematics of a concrete mesh, file systems** are arbitrary
    functions given to the model (uninterpreted), so theorems hold for all of them.
* Visualisation (Coin3D/OSG), Bullet, XML text parsing by rapidxml and Eigen itself are not modelled.
  The lists below say exactly which code is.

## Plan per property

| id | what is modelled | how it is proved |
|----|------------------|------------------|
| C01 | `RLE_Compress`/`RLE_Uncompress` as functions on byte lists with an explicit cursor, `ub` on out-of-bounds read | token-level grammar lemma: the compressor's output is a concatenation of encoded runs; the decoder decodes each run; induction over the input |
| C02 | same | length of each encoded token vs. symbols consumed; marker frequency <= n/256 by pigeonhole over the histogram |
| C03 | same decoder with out-of-bounds outcome | from C01's decoder lemma; negative witness for one-byte buffers |
| C04 | `WorkspaceDataArray` with lazily allocated blocks and flattened indices | refinement to a total function of six coordinates; mixed-radix injectivity |
| C05 | same, all mutators as a step function | invariant by induction over operations |
| C06 | same | invariant for histories without zero writes (`_partial`) + counterexample |
| C07 | same | pointwise case analysis, lifted to histories |
| C08 | same | induction over increment histories |
| C09 | neighbourhood loop with clipping | loop invariant over the enumerated box |
| C10 | `getMaxSummedAngleReachablity` | prove it returns 0 for every content (negation of the intended claim) |
| C11 | `CSpace` node pool | invariant by induction over create/remove/reset; double removal shown to break it |
| C12 | `CSpaceTree` over the pool | invariant by induction |
| C13 | `createPath` parent walk | well-founded parent relation invariant; walk lemma |
| C14 | `getNearestNeighborID` | fold invariant |
| C15 | tree `reset` | negation with exact leak count for every tree |
| C16 | `Trajectory` editing on lists | list laws |
| C17 | `interpolate` over an exact ordered field | loop invariant for the segment search |
| C18 | `getLength` over an abstract metric | induction |
| C19 | `CSpacePath::getLength`, `getTime`, `calcDist` with weights | negation by witness; positive theorem for unit weights |
| C20 | `respectBoundaries`, `isInBoundary`, `setBoundary` | pointwise order reasoning |
| C21 | `CSpaceSampled::createPath` loop with fuel and exact linear interpolation | loop invariant on remaining distance |
| C22 | `isPathValid` recursion with depth limit | induction over recursion |
| C23 | RRT `plan` as a loop over an arbitrary sample stream, on the tree model | invariants on tree edges; `createSolution` via C13 |
| C24 | BiRRT likewise with two trees over one pool | same |
| C25 | RRT with start = goal | negation: no stream leads to success |
| C26 | `doShortcut`, `validShortcut`, `shortenSolutionRandom` | list surgery lemmas, metric triangle inequality, induction over rounds |
| C27 | `PlanningThread`, `PathProcessingThread` as interleaving transition systems | inductive invariant over all schedules |
| C28 | `CDManager` | invariant by induction over registrations; iterator invalidation as `ub` |
| C29 | distance folds | fold lemma |
| C30 | `RobotConfig` | map reasoning |
| C31 | `SceneObjectSet` | invariant by induction |
| C32 | `GraspSet`, `ManipulationObject` | invariant by induction; include/lookup mismatch as counterexample |
| C33 | `Scene` | refinement to an abstract registry |
| C34 | `RobotNode` joint value setters over an exact ordered field with period | case analysis, archimedean loop argument |
| C35 | kinematic tree as inductive type with poses in an arbitrary monoid/group | structural induction |
| C36 | attach/detach over a heap of objects | invariant by induction; cycle counterexample |
| C37 | lookup over an arbitrary file-existence predicate | list search lemma |
| C38 | `CSpace::calcDist`, `interpolate`, angle differences over `ℝ` | metric laws coordinate by coordinate, lifted to lists by the triangle inequality of the Euclidean norm |
| C39 | `createPathUntilInvalid` loop with fuel | loop invariant, fuel bound from the remaining distance |
| C40 | `setGlobalPoseForRobotNode`, `setGlobalPositionForRobotNode` over an arbitrary group of poses / rigid motions | group algebra; negation by witness for identity orientation (`_partial`) |
| C41 | `toLocalCoordinateSystem`, `toGlobalCoordinateSystem`, `getTransformationTo` ... | group algebra |
| C42 | `Grasp` pose conversions | group algebra |
| C43 | `RuntimeEnvironment` parameter map and command line | refinement to "last value stored" |
| C44 | `VoxelTreeND`/`VoxelTreeNDElement` as an inductive tree with the child index arithmetic, id counter, serialised form, iterator | invariant by induction over writes: every node sits at the dyadic cell of its path; refinement to a map from grid cells |
| C45 | PQP: bounding volume fitting, tree construction into the array, parent-relative frames, box test, triangle test, traversal, all over `ℝ`; the iterative eigenvector computation is an arbitrary sequence of plane rotations | array-to-tree refinement (`Rep`); containment invariant (`Fits`); separating axis soundness by convexity; completeness by Hahn-Banach and a maximal set of tight constraints |
| C46 | `PQP_Model` life cycle with pointer states | simulation by an abstract client view, induction over calls |
| C47 | rectangle distance, triangle distance (edge pairs and faces), distance traversal, `last_tri` kept between queries in a store that models may share | lower bound for the rectangle distance region by region; exactness of the triangle test from first-order optimality: a closest pair lies on two edges, or one of the two faces sees a corner; traversal invariant "result stems from a pair and is within the bounds of all pairs seen"; induction over queries |
| C48 | tolerance traversal, `checkCollision(model, point, tolerance)` | same lower bounds; witness for the ignored tolerance |
| C49 | the loop over actors with its restarts, the loop over joints, storing of contacts with the trial move and its undoing; collision checker and distance are arbitrary functions of the configuration | invariant of the loop: after the first pass of a round, all actors done implies that nothing moved and all are stuck |
| C50 | number of passes as fuel | the number of steps left until the limits decreases with every move, and without a move the loop ends after at most four passes; two non-terminating hands as witnesses |
| C51 | as C49 | every legal step keeps the hand free, induction over the steps |
| C52 | poses as pairs of an SO(3) matrix and a vector, Eigen's axis-angle matrix entry by entry, the column loop with its test for ancestors, the row selection by mode bits; forward kinematics from `Kin` | the chain to the tcp is split at the moving joint, the derivative of the rotation matrix is the matrix times the cross product with the axis, rotations preserve cross products |
| C53 | the parents computed by the constructor, the column loop per body, the weighted sum and its division by the total mass, `getCoM` with its test for a non-positive mass | the column of a body is the velocity of its origin plus the angular velocity (both from C52) crossed with the lever arm; sums by induction over the bodies |
| C54 | real matrices; Eigen's SVD is a parameter constrained only by the definition of a thin SVD (which is proved to exist for every matrix); the three methods with weights, scaling, default parameters of the float and double variants | three of Penrose's conditions hold exactly and the fourth up to tol; orthogonal projections; the damped inverse solves the normal equation; weights by change of variables |
| C55 | the loop over the tasks with the stacked Jacobian of the tasks before, its null-space projection, the inverse of the projected Jacobian and the update of the step | the projection is symmetric and idempotent, the motion added for a task lies in its range, the stacked Jacobian maps the range into a tol-ball; induction over the appended tasks |
| C56 | the loop with the joint value setters of C35 and the step as a parameter; rotation angle as the angle of a rotation matrix, whose existence and uniqueness is proved (Euler) | induction over the steps with the invariant that the stored best values are those of the current state; setting back is exact because stored values are fixed points of the limits |
| C57 | error vector and its shortening, stacked Jacobian of C52/C53, inverses of C54 | characterisation of the error rows, then the optimality theorems of C54 at the stacked Jacobian |
| C58 | the loop of attempts with the best configuration as a RobotConfig, on top of computeSteps; random numbers, collision query and reachability are parameters | induction over the attempts with the invariant that the stored configuration is that of a state reached before |
| C59 | the search over the clone of the grasp set with removal of failed grasps, on top of the generic solver | restoring values within limits is exact; induction over the size of the set |
| C60 | the six coordinates as reals with the conversion to int as truncation towards zero | floor and ceiling arithmetic, one dimension at a time |
| C61 | the calls on top of the voxel store of C04-C10 and the addresses of C60 | refinement to the plain map by induction over the history |
| C62 | the loops over the grid as folds over lists of voxels | each loop is shown to be the sum, maximum or count of the specification, on top of C61 |
| C63 | poses as in C52; the conversion to orientation coordinates is a parameter | an affine function on a box takes its extremes at the corners; arithmetic of the cell counts |
| C64 | files as byte lists, reading as a parser with exceptions and undefined behaviour; the buffering of bzip2 around an abstract decoder | round trips of the single values composed over the head; invariants of the buffered reader over all chunks and blocks; positions of the end mark |
| C65 | the loop with its buffer bound, writes beyond it are undefined behaviour | induction over the data; the number of pairs is counted from the maximal runs |
| C66 | the monotone chain algorithm with its stack in an array of bounded size, over real numbers | invariant of the stack (left turns, all points seen are left of all edges) over all insertions; extreme points by two affine functions; the region between the chains equals Mathlib's convexHull |
| C67 | the loop over segments with its early exits | case analysis over the chains: zero on a line implies on the segment for points of the hull; strictly left of all implies between the ends |
| C68 | the conversion functions over real numbers, atan2 as argument of a complex number | trigonometry; both gimbal branches from the orthogonality of the matrix |
| C69 | the component formulas over real numbers; Eigen's toRotationMatrix | refinement to Mathlib's quaternions |
| C70 | the functions with Eigen's conversions they call | case analysis over the branches; Rodrigues' formula |
| C71 | the functions over real numbers | polar form of two complex numbers |
| C72 | the function over real numbers with its branch for opposite directions | half angle formula; rotation as conjugation |
| C73 | the functions over real numbers | orthogonal decomposition; the last sentence is refuted by a plane through (1,0,0) |
| C74 | the loop with its sign decision and the fallback to the first element | invariant: the squared length of the sum grows by at least one in each step, so the fallback is never taken |
| C75 | the function with the components as it copies them, and Eigen's slerp | for quaternions with equal x, y and z; refuted in general |
| C76 | the functions over real numbers; C's fmod by truncation, the loops that add turns by structural iteration | arithmetic with floors; induction over the loop |
| C77 | 4x4 matrices with block assignment | product rule for (position, orientation); orthogonality; trace of an axis-angle rotation |
| C78 | the functions over real numbers | Lagrange's identity, polar coordinates, Rodrigues' formula |
| C79 | the functions over real numbers; random numbers as arguments | Cramer's rule; induction over the list and the depth; convex combinations |
| C80 | the functions over real numbers | linear algebra in three dimensions; counterexample for GetSignedDistance |
| C81 | the loop over the components | induction over the components; counterexample |
| C82 | the functions over real numbers; the int cast by truncation; loops as folds | derivatives by Mathlib's calculus, glued at the joints; induction over the folds |
| C83 | the class over real quaternions with the model of Eigen's AngleAxis of C69-C71 | turns about one axis add up; the angle of the turn is determined by the trace |
| C84 | the vector with its offsets; the cache as data, valid and a log of the calls | offsets in range are different; refinement to a function; induction over the program |
| C85 | both tables in full; the function over an ordered field | a check of the 256 rows by the kernel, lifted to all values; case analysis of the interpolation |
| C86 | the loop over the cells | the sides of a cell's triangles sum to the segments on its six faces; those of neighbouring cells cancel; telescoping sums over the grid |
| C87 | the queue, the marks and the flag as a state machine | invariant over the turns; the marked cells bound the number of turns; the grid is connected |
| C88 | the function, with the conversion to int by truncation | the start index is in range; C86 and C87 carried over by the transform |
| C89 | the 32 bit buffer with its count, byte by byte | invariant between the buffer and the list of bits, by induction over the fields |
| C90 | the state machine of the coder and that of the decoder, with its three look-ahead branches | induction over runs |
| C91 | the counts, their sums, the loop that links the elements | the k-th occurrence of a byte in the last column is the k-th in the first; rank of a rotation |
| C92 | the list, the pending zeros, the loops that write and read the length of a run | induction; bijective base 2 numbers |
| C93 | the heap, parents and weights with the depth in the lower 8 bits, loop by loop | heap invariant; invariant of the forest; Fibonacci bound for the depth |
| C94 | limit, base, perm with the outcome ub outside the arrays | canonical codes as intervals; invariant of the loop over the lengths |
| C95 | writer as fields, reader as a parser over bits, with bounds for its loops | parser inverts writer, part by part; invariants of the iterations |
| C96 | the blocks, the header and the trailer, with their checksums | invariant over the bytes and blocks; C89 to C95 |
| C97 | the outcome ub for accesses outside | every parser with a postcondition; invariant of the decoder's list |
| C98 | 32 bit arithmetic with the full table | the table is injective in its lowest byte; induction backwards; inversion of the parser |
| C99 | the functions as written, over the reals | calculus: the derivative of the distance, with the case of equal points by a limit |
| C100 | exact linear algebra over the reals | the rows of the inverse; permutation of the samples |
| C101 | as C100, with four features for each sample with normal | the rows of the covariance are values and derivatives of the prediction, by C99 |
| C102 | the recursion over the tree of scene objects, with the map of the children by name | induction over the tree: mass times centre is the sum over the bodies; then the velocity of the centres from C53 |
| C103 | value and gradient of each constraint as functions of the state of the robot, on the trees and Jacobians of Kin/Jac | derivative of poses and centres of mass from C52/C53, chain rule; for the rotation angle the derivative of the trace |
| C104 | as C103 | false: counterexamples; proved: the orientation part of the pose constraint; the position part is the gradient times ten; the balance gradient is ten times the gradient when joints and bodies are the same set; the region when its frame is not turned against the global one, times ten |
| C105 | as C103 | case distinction over the selections; monotony of the sigmoid |
| C106 | the loop over the attempts with the optimiser as an arbitrary function; the record currentX of the configuration | invariant of the loop: the robot differs from its first state at most in the joints of the set; the best attempt so far |
| C107 | state machines for the list of constraints, the loop and the steps; std::sort by its contract | induction over the history and over the iterations |
| C108 | the lists of contacts as the code builds them | induction over the list; direct computation |
| C109 | the generator over the reals | rotation to the normal (C70), trigonometry |
| C110 | the six-dimensional hull with qhull as a function with a contract (the facets describe the convex hull) | the facets as half spaces; reflection of the torques |
| C111 | the stored faces with their distances to the mean of the vertices | fold over the faces; a ball lies in an intersection of half spaces exactly if its centre is far enough from all of them |
| C112 | state machine with the flags and cached hulls | invariant by induction over the history |
| C113 | the loop with the results of rand() as a list | induction over the rounds; permutations |
| C114 | the generator with collision checks as functions of the pose of the hand and its fingers, random numbers as arguments | barycentric coordinates; orthonormal frames; induction over the steps |
| C115 | state machine over hand and planner; the generator, the clock, closing of the fingers and the quality are parameters | induction over the turns; invariant over all operations |
| C116 | the six nested loops as a big step relation (they may not end), random numbers as arguments | induction over the dimensions; uniqueness of the result |
| C117 | the sequence of poses with hand, fingers, object and the state of the measure | induction over the poses |
| C118 | the arrays and the index arithmetic, an access outside of them is undefined | simulation by a sheet on which values are noted, by induction over the history |
| C119 | the loop of attempts, random numbers are arguments | induction over the attempts |
| C120 | the loops over positions and grids; reading a variable that was not set is undefined | induction over positions and grids |
| C121 | the bounds with the start values FLT_MAX and -FLT_MAX, reals, infinite and NaN | induction over the points |
| C122 | the vectors of vertices, normals, colours and faces with ids modulo 2^32 | invariant by induction over the history |
| C123 | the loops over the vertices and the results of the kd-tree, and the map of used faces | induction over the vertices |
| C124 | the loops over faces and corners; NaN for angles of collapsed triangles | induction over faces and corners |
| C125 | the comparison of all pairs of faces in their order | invariant by induction over the pairs; the table of common corners of two faces is finite and decided completely |
| C126 | the table of corners and the loops | the table is decided completely, the rest is linear algebra and induction |
| C127 | configurations are vectors of a Euclidean space, the formulas of the segments with arccos, sin, cos, tan and atan2 over the reals | trigonometry in the plane of the corner, derivatives |
| C128 | the loops of the constructor and the search for the segment | induction over the waypoints |
| C129 | minima over lists of candidates, infinity as none | intervals of which every two meet have a common point; continuity for the derivative |
| C130 | the loops with fuel; limits are functions of the position, comparisons of slopes are arbitrary predicates, the next switching point is an arbitrary function | invariants by induction over the rounds |
| C131 | the list of steps, the cached time and iterator, the formulas of the interpolation | invariant of the cache by induction over the queries; derivatives glued at the steps |
| C132 | units are texts, elements are trees of names, attributes and children, the parsing of numbers is an arbitrary partial function | case analysis over the table of units, induction over attributes |
| C133 | 4x4 matrices of real numbers, the functions part by part | matrix identities, induction over the children |
| C134 | the two limits and the unit as they are overwritten | case analysis |
| C135 | the factors as they are multiplied | case analysis over the units |
| C136 | the loops over the children | induction over the children |
| C137 | nodes are names, the map ordered by addresses is an arbitrary permutation of the document | invariant of the tree by induction over the attachments; the order below is well-founded |
| C138 | the counter of types, the two locked sections as two steps | the counter of a type grows; decimal numbers are injective |
| C139 | poses are an arbitrary group, joints an arbitrary family of motions; the search, the building and the final changes as they are | invariant of the search over done and open nodes; invariant of the building by induction over the edges; induction along the tree |
| C140 | the recursive copy with its attachments, a scaling is an arbitrary endomorphism of the poses | invariant of the copy by induction over the depth and the children; induction along the tree |
| C141 | the fixed transformations of the new chain, from the poses at the time of the copy | induction over the chain |
| C142 | files are lists of bytes, reading takes bytes from the front and leaves the memory alone when there are none; the map from corners to vertices is a list of pairs | invariant of the map and the mesh by induction over the triangles |
| C143 | the length of the file against the number in bytes 80 to 83, with its sign and the wrapping of 64 bit numbers | arithmetic of bytes |
| C144 | lines are strings, the numbers in a line an arbitrary function that may leave the old value | induction over the facets with the invariant of C142 |
| C145 | documents are trees of bodies with lists of elements; poses an arbitrary group acting on an arbitrary space, the motions of joints arbitrary functions of their values | induction over the nodes and the depth of the recursion, with the placed bodies as invariant |
| C146 | the recursion over the tree, with the pose accumulated so far and the sets of merged bodies | induction over the number of bodies |
| C147 | as C145 | induction over the number of bodies; conjugation of the motions of joints |
| C148 | sets of merged bodies as lists of lists of names | induction over the number of bodies |
| C149 | a scaling is a function on the space that commutes with sums and rotations, and a function of joint values | structural induction over bodies and elements |
| C150 | the joints of the document in its order | map over the joints, with the limits of C149 |
| C151 | the controller over an arbitrary field | induction over the history |
| C152 | three controllers of C151 | induction over the steps; the diagrams are functions of lists of errors |
| C153 | an arbitrary ordered field | invariant over histories; the new velocity is between the old one and the one asked for; exact formula of the remaining distance |
| C154 | the controller of C153 in a loop with a joint that moves by the velocity times the length of a step | induction over the steps |
| C155 | an arbitrary ordered field with a floor; undefined behaviour is no result | induction over the data; arithmetic of floors |
| C156 | the loops of `std::min_element` and `std::max_element`; the indices of the filter are unsigned numbers of 64 bits | invariant of the loops; arithmetic |
| C157 | an arbitrary ordered field; `std::sort` is any function that sorts | invariant of maps by induction over the keys; induction over neighbouring keys |
| C158 | positions are added up with an arbitrary rounding | induction over the list; C157 |
| C159 | real numbers, with the functions of Mathlib for `atan2`, sine, cosine and roots | induction over faces and levels; trigonometry |
| C160 | as C159 | the cones of the base polyhedra cover space; the four cones of a divided face cover its cone; induction over levels |
| C161 | as C159 | invariant of the loop; arccos is antitone; vector identities |
| C162 | random numbers are an arbitrary function; nodes are an arbitrary type | invariant of the operations; invariant of the loop; C161 |
| C163 | bodies are an arbitrary type, with a null pointer; the two lists of the code | induction over the history |
| C164 | the bodies and constraints of the physics engine are lists | invariant of the operations |
| C165 | as C164; the chain of parents of a node is a list | induction over the chain and the links |
| C166 | real numbers; targets and controllers are maps from nodes | induction over the history |
| C167 | real numbers; what the motor of the physics engine is told, not what it then does | case analysis; induction over the steps; C153 |
| C168 | nodes are an arbitrary type with a parent function; the poses are left out | invariant of the pass and of the loop; a node of least rank makes progress |
| C169 | on top of the bi-directional planner (C24); IK results are an arbitrary stream; the goal tree is a forest with one root per goal that could not be connected | invariant: every node of either tree is an admissible root or hangs below an earlier node by a checked segment |
| C170 | as C169; pointers to grasps and to their copies are different values | invariant of the cycles |
| C171 | vectors of a real normed space; distance and direction of obstacles are arbitrary functions of the configuration | induction over the points and the rounds; convexity and triangle inequality |
| C172 | as C171; reading a point that does not exist throws | witness; case analysis |
| C173 | real numbers; a singular value decomposition is any list of values with orthonormal vectors | uniqueness of singular values by the characteristic polynomial; determinants of the Gram matrices; orthonormal bases |
| C174 | real numbers; a singular value decomposition is any list of values with orthonormal vectors | bounds of the product of the parts, monotonicity of the exponential |
| C175 | real numbers; a singular value decomposition is any list of values with orthonormal vectors; comparisons with the largest float are kept | bounds of the penalties; a finite table for the octants; induction over the list of octants |
| C176 | a map from voxels to entries; one thread; std::sort is any sorting function | induction over the poses: the entry is the largest one |
| C177 | comparison and write are two steps of a thread | invariant over the schedule; witness |
| C178 | six-dimensional cells; the new map is computed from the old one | the sum over the 729 offsets; bounds of a mean |
| C179 | 4x4 real matrices; the robot is a registry of nodes with invertible poses that change arbitrarily | refinement of a pose in the world that is fixed to a node, by induction over the history |
| C180 | poses are rigid motions of the space; joints between the nodes of the set are fixed; reads outside of the vector are an outcome | induction over trees and chains, triangle inequality |
| C181 | bodies with a mass and a centre; poses are rigid motions | induction over the bodies |
| C182 | the contacts are given; the projection, the thinning and the hull are the functions modelled before (Rot, Hull) | the projection to the floor drops the height; thinning twice is thinning once; C66 |
| C183 | real numbers; the loop over the edges with its minimum that starts at FLT_MAX | the distance to a line bounds the discs to the left of it; a convex polygon is the intersection of its half planes; points on a vertical line are a separate case |
| C184 | a loop over an arbitrary step function, validity test, norm, motion and tolerance test | induction over the iterations with an invariant on the steps taken |
| C185 | joints with limits and a value that is brought into the limits; the Jacobian and its inverse are the identity | induction over the steps |
| C186 | meshes over the real numbers as lists of vertices and faces; the recursion has a depth, running out of it is an outcome of its own, as is a read out of bounds | the sum of the squared edge lengths drops by maxDist^2/2 with every halving, which bounds the depth; a tree of halvings is a partition; results do not depend on the depth |
| C187 | as C186 | an edge is halved until it is short, in whichever triangle and direction, so every antisymmetric function of the edges has the same sum before and after; a surface is closed exactly if all of these sums vanish |
| C188 | the position error, the guess and the step of the hierarchical solver are arbitrary functions of the joint values; random numbers are given | an invariant of all configurations on the way, by induction over the loops |
| C189 | as C188 | induction over the steps |
| C190 | hulls and meshes as lists of vertices and faces over the real numbers | swapping the outer corners negates the cross product; induction over the faces |
| C191 | the nine logs of the code; the readings of the robot are given; the file is a list of rows of cells | refinement to one list of steps, by induction over the history |

## What is modelled

| area | code |
|---|---|
| `Rle` | `VirtualRobot/Compression/CompressionRLE.cpp` |
| `Workspace` | `VirtualRobot/Workspace/WorkspaceData.cpp`, `WorkspaceDataArray.cpp`; data access of `WorkspaceRepresentation.cpp` |
| `Planning` | `MotionPlanning/CSpace/CSpace.cpp` (node pool), `CSpaceTree.cpp`, `CSpaceNode.h` |
| `CSpace` | `CSpace.cpp` (distances, limits, interpolation), `CSpaceSampled.cpp`, `CSpacePath.cpp` |
| `Rrt` | `MotionPlanning/Planner/Rrt.cpp`, `BiRrt.cpp`, `MotionPlanner.cpp` |
| `Trajectory` | `VirtualRobot/Trajectory.cpp` (editing, interpolation, length) |
| `Shortcut` | `MotionPlanning/PostProcessing/ShortcutProcessor.cpp`, `PathProcessor.cpp` |
| `Threads` | `MotionPlanning/Planner/PlanningThread.cpp`, `PostProcessing/PathProcessingThread.cpp` |
| `Collision` | `VirtualRobot/CollisionDetection/CDManager.cpp`, `CollisionChecker.cpp` (set queries), `SceneObjectSet.cpp` |
| `Kin` | `Nodes/RobotNode*.cpp` (joint values, limits, poses), `Robot.cpp` (poses), `RobotConfig.cpp`, `SceneObject.cpp` (frames) |
| `Attach` | `SceneObject.cpp` (attach/detach) |
| `Scene` | `Scene.cpp` |
| `Grasp` | `Grasping/Grasp.cpp`, `GraspSet.cpp`, `ManipulationObject.cpp` |
| `Env` | `RuntimeEnvironment.cpp` |
| `Voxel` | `Workspace/VoxelTreeND.hpp`, `VoxelTreeNDElement.hpp` |
| `Pqp` | `CollisionDetection/PQP/PQP++/{PQP.cpp,Build.cpp,BV.cpp,OBB_Disjoint.h,MatVec.h,RectDist.h,TriDist.cpp}` without the variants with a queue (`BVTQ.h`), which the checker never selects, `CollisionModelPQP.cpp`, `CollisionCheckerPQP.cpp` |
| `Eef` | `EndEffector/EndEffectorActor.cpp` (`moveActor`, `moveActorCheckCollision`, the `isColliding` variants it uses), `EndEffector.cpp` (`closeActors`, `openActors`) |
| `Jac` | `IK/DifferentialIK.cpp` (`updateJacobianMatrix` for one tcp and for all goals), `RobotNodeRevolute.cpp`/`RobotNodePrismatic.cpp` (`updateTransformationMatrices`, `getJointRotationAxis`, `getJointTranslationDirection`), `RobotNode.cpp` `getAllParents` |
| `Jac` | `IK/CoMIK.cpp` (constructor's parents, `getJacobianOfCoM`, `getJacobianMatrix`), `RobotNodeSet.cpp` `getCoM`/`getMass`, `SceneObject.cpp` `getCoMGlobal` |
| `Inv` | `MathTools.cpp` (`getPseudoInverse`, `getPseudoInverseDamped` and double variants), `IK/JacobiProvider.cpp` (`updatePseudoInverseJacobianMatrix` and its internal and double variants), `IK/HierarchicalIK.cpp` and `IK/StackedIK.cpp` `computeStep` |
| `Ik` | `IK/DifferentialIK.cpp` (`setGoal`, `updateDelta`, `updateError`, `computeStep`, `getErrorPosition`, `getErrorRotation`, `getMeanErrorPosition`, `checkTolerances`, `computeSteps`, `solveIK`), `IK/GenericIKSolver.cpp` 31-137, 152-156, `IK/AdvancedIKSolver.cpp` 74-88, 100-225, 252-260 |
| `Wsr` | `Workspace/WorkspaceRepresentation.cpp` 37-84, 637-865, 937-965, 1125-1435, 1458-1508, 1607-1662, 1697-1906, 1928-1939, 2113-2141 (rotation coordinates are a parameter; no building up by random sampling) |
| `Wsf` | `Workspace/WorkspaceRepresentation.cpp` 87-169, 171-501, 503-625; `Workspace/WorkspaceDataArray.cpp` 525-573; `XML/FileIO.h` 35-74, 109-114; `Compression/CompressionBZip2.cpp` 4957-5006, 5010-5100, 5127-5219, 5875-5903 (the block decoder is a parameter; little-endian; writing succeeds) |
| `Hull` | `MathTools.cpp` 389-615, 1879-1918; `MathTools.h` 682-685 (real numbers; `std::sort` by its result) |
| `Rot` | `MathTools.cpp`: eigen4f2rpy, posrpy2eigen4f and relatives, quaternion operations, getMean, slerp, axis and angle, Hopf coordinates, getRotation, planes (lines cited at each definition; real numbers) |
| `Mth` | `MathTools.h` fmod to angleDelta, nearestPointOnLine/Segment; `MathTools.cpp` getAngle(v1,v2), toPosition, toSphericalCoords, getTriangleArea, getPoseDiff, randomPointInTriangle, intersectSegmentPlane, intersectPlanes; `math/Helpers`, `math/Line`, `math/Triangle`, `math/Plane`, `math/ImplicitPlane` | real numbers instead of floats; random numbers as arguments; divisions by zero excluded |
| `Mth` curves | `math/Bezier`, `math/LinearContinuedBezier`, `math/LineStrip`, `math/LineStripR1RM.h`, `math/AbstractFunctionR1R3`, `math/CompositeFunctionR1R6` (position), `math/TransformedFunctionR1R3`, `math/LinearInterpolatedOrientation`, `Helpers` FloatRange, VectorRange, Average | real numbers instead of floats |
| `Mc` | `math/Array3D.h`, `math/GridCacheFloat3`, `math/MarchingCubes` (both tables in full, Process, ProcessSingleSurfaceOptimized, Calculate), `math/Triangle::Transform` | an ordered field instead of float; the loop that clears `valid` left out; a start that is not a cell is an error |
| `Bz` | `Compression/CompressionBZip2`: bit buffers, run-length coding, last column and its inverse, move to front, code lengths, codes, tables and selectors, block, header and trailer, CRC | BZ2_blockSort by its specification; no copying between buffers (input and output in one piece), no file errors; old randomised blocks are an outcome of their own; the decoder's list in one part instead of 16; the smallDecompress variant is not modelled |
| `Krn` | `math/Kernels`, `math/GaussianImplicitSurface3D`, `math/GaussianImplicitSurface3DNormals`, `math/GaussianImplicitSurface3DCombined` | the reals instead of float; the inverse of a singular matrix is zero |
| `Grv` | `Tools/Gravity.cpp` | on the trees of `Kin`/`Jac`; reals instead of float; masses and tree do not change after the construction |
| `Cst` | `IK/constraints/{Position,Orientation,Pose,CoM,ReferenceConfiguration,JointLimitAvoidance,Balance,TSR}Constraint.cpp` | values, gradients, checks; reals instead of float; no visualisation; the support polygon is a list of segments; `considerCoMHeight` and stability-index variants are not modelled |
| `Cst` | `IK/ConstrainedOptimizationIK.cpp`, `ConstrainedIK.cpp`, `ConstrainedHierarchicalIK.cpp`, `ConstrainedStackedIK.cpp`, `Constraint.cpp` | NLopt and `std::sort` are parameters; no equality/inequality constraints of NLopt (none of the constraints modelled has any); no visualisation, no reduced robot |
| `Gpl` | `GraspPlanning/GraspQuality/BasicGraspQualityMeasure.cpp`, `GraspQualityMeasure.cpp`, `GraspQualityMeasureWrenchSpace.cpp`, `GraspQualityMeasureWrenchSpaceNotNormalized.cpp`, `ContactConeGenerator.cpp`, `ConvexHullGenerator.cpp` (6D) | real numbers for floats; qhull and `rand()` are parameters; no printing, no mutex, no hull distances (`minDistanceToGWSHull`) |
| `Gpn` | `GraspPlanning/ApproachMovementGenerator.cpp`, `ApproachMovementSurfaceNormal.cpp`, `GraspPlanner/GenericGraspPlanner.cpp`, `GraspPlanner/GraspPlannerEvaluation.cpp`, `GraspQuality/GraspEvaluationPoseUncertainty.cpp` | real numbers for floats; collision checks, closing of the fingers, the quality measure, the clock and random numbers are parameters; no printing; `preshape` of the evaluation is the function `opened` |
| `Wsg` | `VirtualRobot/Workspace/WorkspaceGrid.cpp` (constructor, reset, getEntry, getCellEntry, setEntry, setCellEntry, setEntryCheckNeighbors, setEntries, getMaxEntry, getRandomPos, setGridPosition, MergeWorkspaceGrids) | real numbers for floats, unbounded integers, random numbers are arguments; not `fillGridData`, getters and printing |
| `Msh` | `VirtualRobot/Visualization/TriMeshModel.cpp`, `TriMeshUtils.cpp`, `VirtualRobot/BoundingBox.cpp`, `TriangleFace` of `MathTools.h` | real numbers for floats, NaN as a value of its own, ids modulo 2^32; the kd-tree is a function from vertices to lists of vertices; not materials, printing and `rotate` |
| `Tot` | `VirtualRobot/TimeOptimalTrajectory/Path.cpp`, `TimeOptimalTrajectory.cpp` | real numbers for doubles; `Gen` takes the limits, the comparisons of slopes and the search for switching points as arbitrary functions; not `outputPhasePlaneTrajectory`, `getNextSwitchingPoint` of the trajectory and copies of the objects |
| `Rio` | `VirtualRobot/XML/BaseIO.cpp`, `VirtualRobot/XML/RobotIO.cpp`, `VirtualRobot/Units.h`, `VirtualRobot/RobotFactory.cpp` (initializeRobot) | elements are trees, the parsing of a number is an arbitrary partial function, numbers are real; not the parsing of XML, visualizations, sensors, end effectors, children from other files and trajectories |
| `Rfc` | `VirtualRobot/RobotFactory.cpp` (clone, cloneInversed, cloneChangeStructure, cloneSubSet), `VirtualRobot/Robot.cpp` (extractSubPart), `VirtualRobot/Nodes/RobotNode.cpp` (clone), `VirtualRobot/RobotNodeSet.cpp` (nodesSufficient) | nodes are numbers, poses an arbitrary group, the motion of a joint an arbitrary function of its kind, axis and value; not sensors, inertia matrices, end effectors, united shapes and locks |
| `Stl` | `VirtualRobot/Import/MeshImport/STLReader.cpp`, `VirtualRobot/Visualization/TriMeshModel.h` (the calls of it), `VirtualRobot/MathTools.h` (the face) | files are lists of bytes or of lines; floats are an arbitrary function of four bytes or of a line; corners are compared exactly, not within the tolerance of the map |
| `Mjc` | `VirtualRobot/XML/mjcf/MujocoIO.cpp`, `MasslessBodySanitizer.cpp`, `utils.cpp`, the elements of `MjcfDocument.cpp` used by them | elements are records without the attributes that have no place; poses, rotations and numbers exact; files, meshes, names of assets, lights and sensors are not modelled |
| `Ctl` | `SimDynamics/DynamicsEngine/DynamicsUtils.{h,cpp}` | numbers of an arbitrary ordered field; names and debugging output left out |
| `Hst` | `VirtualRobot/math/Histogram.cpp` | numbers of an arbitrary ordered field with a floor; output to streams left out |
| `Clr` | `VirtualRobot/Visualization/ColorMap.cpp` | numbers of an arbitrary ordered field with a floor; `std::sort` any sorting function |
| `Sph` | `VirtualRobot/SphereApproximator.cpp`, `MotionPlanning/ApproachDiscretization.cpp` | real numbers; `generateTriMesh` left out |
| `Dyn` | `SimDynamics/DynamicsEngine/DynamicsEngine.cpp`, `DynamicsRobot.cpp`, `BulletEngine/BulletEngine.cpp`, `BulletEngine/BulletRobot.cpp` (collision switches, registration, attaching, actuation, nodes without a body) | real numbers; the physics of Bullet and the construction of constraints are left out |
| `Rrt/Ik*`, `Band` | `MotionPlanning/Planner/GraspIkRrt.cpp`, `MotionPlanning/PostProcessing/ElasticBandProcessor.cpp` (without `getForces`) | IK results and obstacle distances are arbitrary; real numbers |
| `Mnp` | `VirtualRobot/IK/PoseQualityManipulability.cpp`, `PoseQualityExtendedManipulability.cpp`, `VirtualRobot/Workspace/Manipulability.cpp` (without files and `checkForParameters`) | real numbers; singular values by specification; memory accesses are atomic |
| `Lnk` | `VirtualRobot/LinkedCoordinate.cpp`; `isKinematicChain`, `isKinematicRoot`, `getMaximumExtension`, `getCoM`, `getMass` of `VirtualRobot/RobotNodeSet.cpp`; `getCoMGlobal`, `getCoMLocal` of `VirtualRobot/Robot.cpp` | real numbers; the robot of a coordinate is not null |
| `Stb` | `VirtualRobot/IK/SupportPolygon.cpp`; `computeSteps` of `VirtualRobot/IK/CoMIK.cpp` and `VirtualRobot/IK/HierarchicalIKSolver.cpp`; `VirtualRobot/IK/JointLimitAvoidanceJacobi.cpp` | real numbers; the contacts are given; the pseudo inverse of the unit matrix is the unit matrix |
| `Rfn` | `GraspPlanning/MeshConverter.cpp`: `RefineObjectSurface`, `checkAndSplitVertex`, `hasVertex`, `getMaxVertexDistance` | real numbers; without the visualization and the collision model made of the result |
| `Gaz` | `VirtualRobot/IK/GazeIK.cpp` | real numbers, with a missing step for nan and inf; kinematics and steps are arbitrary functions; no limitless joints |
| `Rfn` | `GraspPlanning/MeshConverter.cpp`: `CreateTriMeshModel`; `checkVerticeOrientation` of `GraspPlanning/ConvexHullGenerator.cpp` | real numbers; without colours |
| `Lgr` | `SimDynamics/DynamicsEngine/BulletEngine/BulletRobotLogger.cpp` | real numbers; the file is a list of rows of cells; readings are given |

Not modelled: visualisation (Coin3D, OSG), SimDynamics and Bullet, all XML readers and writers, the
importers (COLLADA, URDF, STL, MJCF), Eigen and boost themselves, the solvers behind `ConstrainedOptimizationIK`
(NLopt) and the collision queries of PQP beyond `Pqp`, GUI examples, float rounding.

## Axioms per theorem

Produced by `#print axioms` for every theorem named in `MANIFEST.json`.

<!-- axioms begin -->
| namespace | axioms | theorems |
|---|---|---|
| `Simox.Rle` | Classical.choice, Quot.sound, propext | C01_rle_roundtrip, C01_rle_injective, C02_rle_size_bound, C02_rle_min_size, C03_rle_decoder_in_bounds, C03_rle_never_single_byte |
| `Simox.Rle` | Quot.sound, propext | C01_rle_roundtrip_empty, C03_rle_single_byte_overrun |
| `Simox.Workspace` | (none) | C04_oversized_grid_reads_out_of_bounds |
| `Simox.Workspace` | Classical.choice, Quot.sound, propext | C04_store_is_a_map, C04_read_after_write, C04_clone_equivalent, C05_max_entry_bounds, C06_fill_count_partial, C07_reachable_stays_reachable, C07_min_valid_zero_erases, C08_hit_counts_exact, C08_hit_counts_saturate, C09_neighbourhood_write, C10_max_summed_wrong |
| `Simox.Workspace` | Quot.sound, propext | C05_raw_copy_breaks_bound, C06_zero_write_overcounts, C10_max_summed_always_zero, C10_max_summed_partial |
| `Simox.Krn` | Classical.choice, Quot.sound, propext | C100_interpolates, C100_range, C100_order, C100_duplicates, C101_combined, C101_normals, C101_noise_false, C101_gaussian, C99_first, C99_second_plus, C99_second_minus_false, C99_mixed_minus_false, C99_indices |
| `Simox.Grv` | Classical.choice, Quot.sound, propext | C102_sum, C102_energy, C102_map, C102_constructor, C102_names_false |
| `Simox.Cst` | (none) | C107_already_false |
| `Simox.Cst` | Classical.choice, Quot.sound, propext | C103_position, C103_orientation, C103_com, C103_reference, C103_limits, C103_middle, C103_set, C104_pose_orientation, C104_pose_position_partial, C104_pose_position_false, C104_balance_partial, C104_balance_false, C104_balance_bodies_false, C104_tsr_partial, C104_tsr_false, C105_position_value, C105_orientation_value, C105_position_check_partial, C105_position_check_single, C105_position_check_false, C105_orientation_check, C105_unnamed, C105_pose_check, C105_com, C105_com_target_false, C105_tsr_position, C105_balance, C105_balance_mono, C106_solve, C106_refused, C106_start, C106_start_initial, C106_evaluate_partial, C106_evaluate_false, C106_objective_partial, C106_objective_false, C106_flags_false, C106_start_false, C107_constraints_partial, C107_solve, C107_initialize, C107_step, C107_stacked, C107_restart_false |
| `Simox.Cst` | Quot.sound, propext | C107_constraints_false, C107_stepwise |
| `Simox.Gpl` | Classical.choice, Quot.sound, propext | C108_infos, C108_basic, C108_points_false, C108_length, C109_cone, C109_coulomb_partial, C109_coulomb_false, C109_reported, C109_friction_false, C110_wrenches, C110_closure, C110_nohull_false, C110_touching_false, C111_hull, C111_offset, C111_quality, C111_volume, C111_not_normalized_false, C111_origin_false, C112_closure, C112_quality_partial, C112_stale_false, C112_twice, C112_volume_false, C113_samples, C113_reference |
| `Simox.Planning` | Classical.choice, Quot.sound, propext | C11_pool_never_hands_out_twice, C12_tree_lookups_consistent, C12_append_effect, C12_remove_effect, C13_create_path_correct, C13_removal_can_create_cycle, C14_nearest_is_nearest, C15_full_tree_reset_exhausts, C15_release_partial |
| `Simox.Planning` | Quot.sound, propext | C11_double_removal_hands_out_twice, C15_reset_releases_nothing |
| `Simox.Gpn` | Classical.choice, Quot.sound, propext | C114_point_on_face, C114_direction, C114_approach_pose, C114_move_away_partial, C114_move_away_false, C114_new_pose_partial, C114_new_pose_false, C114_no_face, C114_object_pose_false, C115_grasp_is_good, C115_outcome, C115_plan, C115_plan_ends, C115_timeout_false, C115_evaluation, C115_names_partial, C115_names_false, C115_reported_demands_false, C115_retreat_partial, C115_report, C116_grid, C116_default_count, C116_factors, C116_grid_ends_false, C116_random, C116_undisturbed, C116_grid_center_partial, C116_grid_center_false, C116_contacts, C117_statistics, C117_collisions, C117_restored, C117_independent_partial, C117_stale_false, C117_grasp_partial, C117_grasp_false |
| `Simox.Gpn` | propext | C114_face_areas_false |
| `Simox.Wsg` | Classical.choice, Quot.sound, propext | C118_new, C118_history, C118_queries, C118_partition, C118_below_false, C118_neighbours_false, C118_found_false, C119_random, C119_position_partial, C119_position_false, C120_worst_partial, C120_last_false, C120_areas_false, C120_negative_false |
| `Simox.Msh` | Classical.choice, Quot.sound, propext | C121_points, C121_unique, C121_corners, C121_add_box, C121_transform, C121_scale_partial, C121_scale_false, C121_inside_partial, C121_inside_false, C121_plane, C121_plane_empty_false, C122_ids, C122_add_triangle, C122_triangles, C122_normal, C122_add_mesh, C122_add_uncoloured_false, C122_nan_false, C122_clear_partial, C122_clear_false, C122_set_color_partial, C122_set_color_false, C122_unused, C122_unused_invalid_false, C122_box_false, C122_box_partial, C122_history, C123_merge, C123_merge_partial, C123_merge_false, C124_missing_normals_partial, C124_missing_normals_false, C124_missing_colors, C124_color_count_false, C124_flip, C124_flip_false, C124_fatten_partial, C124_fatten_nan_false, C125_kept, C125_consistent, C125_orient_partial, C125_inverted_false, C125_order_false, C126_box_surface, C126_box_outward, C126_box_closed, C126_box_mesh, C126_grid, C126_areas, C126_com, C126_size, C126_scale |
| `Simox.Tot` | Classical.choice, Quot.sound, propext | C127_line, C127_blend, C127_deviation, C127_no_corner, C127_switching, C128_lookup, C128_near, C128_end, C128_polyline, C128_smooth, C128_switching, C128_next, C128_start_false, C129_velocity, C129_acceleration, C129_acceleration_velocity, C129_derivative, C130_corner_false, C131_cache, C131_history, C131_negative_false, C131_motion, C131_after_end_false |
| `Simox.Tot.Gen` | Classical.choice, Quot.sound, propext | C130_forward, C130_backward, C130_backward_safe, C130_ends, C130_joints, C130_meet, C130_meet_complete, C130_step |
| `Simox.Rio` | Classical.choice, Quot.sound, propext | C132_recognised, C132_unique, C132_convert, C132_other, C132_attribute, C132_case, C132_has, C132_single, C133_translation, C133_rpy, C133_quat, C133_dh, C133_matrix4, C133_matrix3, C133_unknown, C133_product, C133_rigid, C133_node, C133_second_false, C133_units_false, C133_roundtrip, C134_both, C134_no_unit, C134_limitless, C134_missing_partial, C134_missing_hi_false, C134_missing_lo_false, C134_unknown_unit_false, C134_limitless_case_false, C134_start, C135_velocity, C135_acceleration, C135_torque_partial, C135_torque_false, C135_mass, C135_com, C135_inertia, C135_physics, C135_configuration_partial, C135_configuration_false, C136_numbers, C136_nodes, C136_configuration, C136_joint, C136_types, C137_structure, C137_accepted, C137_document_partial, C137_tree_partial, C137_cycle_false, C138_distinct |
| `Simox.Rio` | Quot.sound, propext | C137_addresses_false, C137_root_false, C138_threads_false |
| `Simox.Rio` | propext | C138_given, C138_types_false |
| `Simox.Rfc` | Classical.choice, Quot.sound, propext | C139_structure, C139_unknown, C139_links_partial, C139_serial, C139_mass, C139_branch_false, C139_shape_false, C139_mass_false, C139_chain, C140_structure, C140_unknown, C140_sets, C140_scaled_partial, C140_poses, C140_clone, C140_prismatic_false, C140_dh_false, C141_partial, C141_base_false, C141_between_false |
| `Simox.Stl` | Classical.choice, Quot.sound, propext | C142_binary, C144_text_partial, C144_name_false |
| `Simox.Stl` | Quot.sound, propext | C143_binary, C143_text, C143_many_false |
| `Simox.Stl` | propext | C142_truncated_false, C143_short_false |
| `Simox.Mjc` | Classical.choice, Quot.sound, propext | C145_bodies_partial, C145_meshes_partial, C145_pairs, C145_values_false, C146_mass, C147_motion_partial, C147_robot_partial, C147_shifts_partial, C147_order_false, C147_site_false, C148_names_partial, C149_joint_false, C150_range_false |
| `Simox.Mjc` | Quot.sound, propext | C145_parents, C146_unchanged, C149_scale_partial, C149_limits, C150_range_partial |
| `Simox.Mjc` | propext | C148_unmerged, C148_excludes, C148_names_false, C148_site_false, C148_again_false, C150_actuators |
| `Simox.Ctl` | Classical.choice, Quot.sound, propext | C151_output, C151_new, C152_diagram_partial, C153_limit, C153_acceleration, C153_free, C153_settles, C153_current_false, C153_stale_false, C153_jerk_false, C154_approach_partial, C154_rate_partial, C154_overshoot_false |
| `Simox.Ctl` | Quot.sound, propext | C151_gains, C152_forgets, C152_torque_false |
| `Simox.Hst` | Classical.choice, Quot.sound, propext | C155_bins_partial, C155_total, C155_data_partial, C155_below_false, C156_edges, C156_extremes, C156_median_partial, C156_least_false, C156_centre_false |
| `Simox.Hst` | Quot.sound, propext | C155_data_false, C156_median_false |
| `Simox.Clr` | Classical.choice, Quot.sound, propext | C157_found, C157_between, C157_key, C157_range, C157_types, C157_equal_false, C158_custom_partial, C158_single, C158_round_false |
| `Simox.Sph` | Classical.choice, Quot.sound, propext | C159_graph, C159_project, C159_index, C159_reuse_false, C160_cover_partial, C160_base, C160_octahedron, C160_small_false, C161_found, C161_closest, C161_short_false, C161_ray, C162_add, C162_remove, C162_ids, C162_ids_false, C162_once, C162_pick, C162_none, C162_missed_false, C162_face, C162_face_none |
| `Simox.Trajectory` | Classical.choice, Quot.sound, propext | C16_insert, C16_insert_many, C16_insert_trajectory, C16_remove, C16_slices, C16_no_invented_points, C17_endpoints, C17_fraction, C17_zero_length_index, C17_on_path, C17_lipschitz, C17_reverse, C18_trajectory_length, C18_trajectory_laws, C18_cspace_laws, C18_cspace_range |
| `Simox.Trajectory` | Quot.sound, propext | C16_append_self |
| `Simox.Trajectory` | propext | C16_insert_self_wrong, C16_reverse |
| `Simox.Dyn` | Classical.choice, Quot.sound, propext | C163_enabled, C163_object, C163_reset, C163_self, C164_lists, C164_object, C164_robot, C164_add_robot, C164_remove_robot, C165_attach, C165_links, C165_detach_partial, C165_not_attached, C166_target, C166_last, C166_undefined, C166_stop_false, C166_controllers, C167_torque_partial, C167_torque_false, C167_impulse, C167_speed, C167_acceleration, C167_integrate, C167_hold_partial, C167_offset_false, C167_off, C167_limits, C167_throws, C167_throws_false, C168_poses |
| `Simox.Dyn` | Quot.sound, propext | C164_find, C168_missing_false |
| `Simox.Dyn` | propext | C163_symmetric, C163_self_false, C164_rejected_false, C164_remove_false, C165_twice_false, C165_detach_false |
| `Simox.Rrt` | Classical.choice, Quot.sound, propext | C169_solution, C169_path, C169_no_goal, C23_rrt_solution, C23_sampled_solution, C24_birrt_solution_partial, C24_exact_meeting, C25_start_is_goal_never_succeeds, C25_sampled_never_succeeds |
| `Simox.Rrt` | Quot.sound, propext | C170_working_set_false, C24_goal_after_success_ignored, C24_goal_after_failure_unchecked, C24_failed_plan_bridges |
| `Simox.Rrt` | propext | C169_failed_plan_bridges, C170_visualization_partial, C170_visualization_false, C23_stale_solution_after_failed_plan, C23_get_solution_crashes, C23_solution_survives_reset, C23_timeout_discards_success |
| `Simox.Band` | Classical.choice, Quot.sound, propext | C171_ends, C171_small_moves, C171_drift, C171_shorter, C171_rest, C171_pull, C171_push, C172_stuck, C172_throws, C172_collision_false |
| `Simox.Mnp` | Classical.choice, Quot.sound, propext | C173_well_defined, C173_frame, C173_volume, C173_singular, C173_one_joint_false, C173_direction, C174_within, C174_value, C174_outside_false, C175_limits, C175_at_limit_false, C175_entries, C175_obstacle, C175_perpendicular_false, C175_octants, C175_minimum, C175_one_joint_false, C175_middle, C176_map, C176_order, C176_grasps, C177_threads_partial, C177_one_thread, C177_threads_false, C178_smooth, C178_inner |
| `Simox.Mnp` | propext | C177_self_distance_false, C177_self_distance |
| `Simox.Lnk` | Classical.choice, Quot.sound, propext | C179_history, C179_failures, C179_position, C179_unset_false, C180_chain, C180_empty_false, C180_current, C180_reach, C180_prismatic_false, C181_mean, C181_hull, C181_moves, C181_massless_false |
| `Simox.Lnk` | Quot.sound, propext | C180_root |
| `Simox.Stb` | Classical.choice, Quot.sound, propext | C182_polygon, C182_height, C183_range, C183_none, C183_index, C183_meaning, C183_corner_false, C184_com, C184_hierarchical, C184_solved_start_false, C184_never_solved, C185_middle, C185_limits, C185_error |
| `Simox.Stb` | Quot.sound, propext | C184_tolerances |
| `Simox.Rfn` | Classical.choice, Quot.sound, propext | C186_refine, C186_result, C186_diverges, C186_invalid, C187_closed, C187_max, C187_refined, C190_mesh, C190_points, C190_throws |
| `Simox.Gaz` | Classical.choice, Quot.sound, propext | C188_yes, C188_limits, C188_answers, C188_no, C188_more_loops, C188_solved_start_false, C189_descent, C189_first |
| `Simox.CSpace` | Classical.choice, Quot.sound, propext | C19_length_flag_inverted, C19_length_partial, C19_time_at_end, C19_half_way_is_quarter, C20_boundaries_either_order, C20_clamping, C20_random_config_inside, C20_config_valid_iff, C21_path_partial, C21_path_reaches_goal, C21_goal_missed, C22_valid_sound, C22_invalid_has_reason, C22_zero_dcd_rejects, C38_angle_delta_shortest, C38_dist_pseudo_metric, C38_dist_zero_iff, C38_interpolation_proportional, C38_interpolation_range, C39_until_invalid, C39_zero_distance_unchecked |
| `Simox.Lgr` | Classical.choice, Quot.sound, propext | C191_file, C191_columns, C191_max_false, C191_pause_false |
| `Simox.Shortcut` | Classical.choice, Quot.sound, propext | C26_shorten, C26_round, C26_candidates, C26_candidates_exist, C26_prune, C26_prune_single_point_diverges, C26_sampled |
| `Simox.Threads` | Quot.sound, propext | C27_one_worker, C27_result, C27_flags, C27_stop_takes_effect, C27_worker_never_blocked, C27_stop_returns |
| `Simox.Threads` | propext | C27_stop_lost, C27_stop_hits_wrong_run |
| `Simox.Collision` | Classical.choice, Quot.sound, propext | C28_exact, C28_members, C28_defined_iff, C28_add_model_undefined, C28_same_object_twice, C29_distance, C29_none, C29_empty_set, C31_invariant, C31_nodes, C31_remove |
| `Simox.Collision` | Quot.sound, propext | C28_with, C28_pairs_always_defined, C29_distance_to, C29_distance_to_points, C29_variants_disagree, C31_add, C31_bulk, C31_self, C31_clone |
| `Simox.Kin` | Classical.choice, Quot.sound, propext | C30_all_or_nothing, C30_own_robot, C30_set_get, C30_well_formed, C30_clone, C30_save_restore, C30_robot_reports_success, C34_enforced, C34_not_enforced, C34_limitless, C34_limitless_short, C34_limitless_wrong_angle, C34_limitless_out_of_limits, C34_before_initialization, C34_check, C34_delta_limits, C34_delta_limitless, C34_delta_not_shortest, C35_set_joint_values, C35_set_joint_value, C35_moves_only_below, C35_node_set, C35_constructor_root, C35_set_global_pose, C35_history, C35_propagation_terminates, C35_propagation, C35_cyclic_propagation_diverges, C35_batch_does_not_propagate, C35_wrong_root_breaks_poses, C40_pose_partial, C40_identity_orientation, C40_position_unrotated, C40_wrong_for_identity_orientation |
| `Simox.Kin` | propext | C41_local_global, C41_between |
| `Simox.Grsp` | Classical.choice, Quot.sound, propext | C32_include, C32_lookup, C32_remove, C32_clone |
| `Simox.Grsp` | Quot.sound, propext | C32_no_duplicates, C32_no_duplicates_release, C32_release_admits_duplicates, C32_include_incompatible, C32_preshape, C32_object_include, C32_object_include_throws, C32_include_is_lost_to_get, C32_object_sets |
| `Simox.Grsp` | propext | C42_inverse, C42_target |
| `Simox.Scn` | Classical.choice, Quot.sound, propext | C33_present, C33_order, C33_lookup, C33_independent, C33_config_present, C33_config_lookup, C33_configs_outlive_robot |
| `Simox.Scn` | propext | C33_trajectories, C33_null, C33_config_by_robot_name, C33_query_has_side_effect |
| `Simox.Attach` | Classical.choice, Quot.sound, propext | C36_links, C36_attach, C36_detach, C36_forest, C36_cycle_admitted, C36_has_child, C36_set_pose, C36_initialize, C36_initialize_breaks_links, C36_rename_breaks_names |
| `Simox.Attach` | propext | C36_has_child_cycle, C36_pose_cycle |
| `Simox.Env` | Classical.choice, Quot.sound, propext | C37_env_overwritten |
| `Simox.Env` | Quot.sound, propext | C37_lookup, C37_paths_grow, C37_init_once, C37_order, C43_command_line, C43_file_parameter, C43_vector |
| `Simox.Env` | propext | C37_add, C37_env, C37_dangling_link, C43_values |
| `Simox.Vox` | Classical.choice, Quot.sound, propext | C44_get_after_sets, C44_set_result, C44_leaf, C44_discretization, C44_all_leafs, C44_max_entry, C44_count, C44_save_load, C44_save_empty_fails, C44_iterator, C44_one_level_outside, C44_coarser_than_requested, C44_iterator_one_level, C44_log_of_zero |
| `Simox.Pqp` | Classical.choice, Quot.sound, propext | C45_all_contacts, C45_exact, C45_first_contact, C45_degenerate_pair, C45_check_collision, C46_protocol, C46_double_free, C47_precision, C47_history, C47_unique, C47_new_models, C47_tiny_triangle, C47_contact_points, C48_tolerance, C48_point_tolerance_ignored |
| `Simox.Eef` | Classical.choice, Quot.sound, propext | C49_closed, C49_legal_steps, C49_other_joints, C49_whole_steps, C49_contacts_exact, C49_contacts_once, C49_contacts_measured, C49_open, C49_single_object, C50_terminates, C50_zero_speed, C50_opposed_actors, C51_stays_free |
| `Simox.Eef` | Quot.sound, propext | C49_trial_move |
| `Simox.Jac` | Classical.choice, Quot.sound, propext | C52_columns, C52_unique, C52_size, C52_stacked, C52_propagation_ignored, C53_com, C53_columns, C53_size, C53_frame_wrong |
| `Simox.Inv` | Classical.choice, Quot.sound, propext | C54_near_least_error, C54_bounded, C54_least_error, C54_damped, C54_throws, C54_provider_svd, C54_provider_svd_exact, C54_provider_damped, C54_provider_transpose, C55_throws, C55_priority, C55_best_of_rest, C55_priority_exact, C55_first, C55_stacked, C55_others_disturb |
| `Simox.Ik` | Classical.choice, Quot.sound, propext | C56_errors, C56_success, C56_run, C56_only_set_joints, C56_no_worse, C56_goals, C56_first_step_may_worsen, C56_met_at_start, C57_error, C57_step_transpose, C57_step_svd, C57_frame_ignored, C58_success, C58_unreachable, C58_run, C58_goal_replaced, C58_best_lost, C59_no_update, C59_grasp, C59_sample, C59_object, C59_copy |
| `Simox.Wsr` | Classical.choice, Quot.sound, propext | C60_grid, C60_inside, C60_accepted, C60_outside_not_ignored, C60_position, C60_position_disagrees, C60_centre, C60_pose_from_voxel, C60_pose_from_voxel_leaves, C61_contents, C61_achieved, C61_recorded_stays_covered, C61_covered_was_recorded, C61_if_lower_is_max, C61_hits, C62_sums, C62_maxima, C62_volume_counts, C62_volume_overestimated, C62_fill_holes_fills_nothing, C62_fill_holes_smooths, C62_fill_holes_division_by_zero, C62_voxel_entry_outside, C62_voxel_entry_out_of_bounds, C62_sample, C63_extents, C63_local_global, C63_cut, C63_cut_height, C63_transformations, C63_transformations_misplaced |
| `Simox.Wsf` | (none) | C64_members |
| `Simox.Wsf` | Classical.choice, Quot.sound, propext | C64_round_trip, C64_boundary, C64_cut_silent, C64_old_formats, C64_refused, C64_old_version_saved, C64_size_overflow, C65_pairs_outcome |
| `Simox.Wsf` | Quot.sound, propext | C64_values, C65_pairs_round_trip |
| `Simox.Hull` | Classical.choice, Quot.sound, propext | C66_hull, C66_exact, C67_inside, C67_exact, C67_near, C67_center |
| `Simox.Rot` | Classical.choice, Quot.sound, propext | C68_from_rpy, C68_to_rpy_and_back, C68_rpy_roundtrip, C69_algebra, C69_rotation, C70_quaternion, C70_axis_angle, C70_angle, C71_unit, C71_hopf, C72_direction, C73_project, C73_plane_point, C73_local_partial, C73_local_false, C74_mean, C75_slerp_partial, C75_slerp_false |
| `Simox.Mth` | Classical.choice, Quot.sound, propext | C76_fmod, C76_angle_mod, C76_delta, C76_lerp, C76_shift, C77_pose_parts, C77_inverse, C77_transform, C77_translate, C77_pose_diff, C77_pose_diff_symm, C77_pose_diff_zero, C78_orthonormal, C78_angle, C78_spherical, C78_spherical_back, C78_cylinder, C78_area, C78_rotation_vector, C78_rotation_of_vector, C79_closest_point, C79_line_points, C79_ray_triangle, C79_ray_misses, C79_ray_primitive, C79_triangle, C79_subdivide, C79_random_point, C79_nearest_on_segment, C80_from_normal, C80_uvw, C80_implicit, C80_closest, C80_get, C80_signed_distance_false, C80_signed_distance_partial, C80_intersect, C80_segment_plane, C80_intersect_planes, C81_limit_false, C81_limit_grows, C81_limit_partial, C82_bezier, C82_bezier_points, C82_continued_bezier, C82_line_strip, C82_line_strip_knots, C82_line_strip_degenerate, C82_segments, C82_find_closest, C82_length, C82_move_false, C82_move_partial, C82_float_range, C82_vector_range, C82_average, C82_composite, C82_transformed, C83_orientation_partial, C83_orientation_slow, C83_orientation_end_false |
| `Simox.Mc` | Classical.choice, Quot.sound, propext | C84_array, C84_cache, C85_cell, C86_process, C86_closed_partial, C86_holes_partial, C86_closed_false, C87_search, C87_sub, C87_closed_partial, C87_single_false, C88_calculate, C88_closed_partial, C88_border_false |
| `Simox.Mc` | propext | C84_array_alias_false |
| `Simox.Bz` | Classical.choice, Quot.sound, propext | C89_writer, C89_reader, C89_roundtrip, C90_runs, C90_cut, C91_inverse, C91_in_range, C91_links_perm, C92_roundtrip, C92_range, C93_kraft, C93_usable, C93_terminates, C93_depth, C94_fits, C94_roundtrip, C94_prefix_free, C94_in_range, C95_assertions, C95_roundtrip, C95_fuel, C96_roundtrip, C97_block_partial, C97_stream_partial, C97_safe_false, C97_expand, C97_values, C98_burst, C98_checked |
| `Simox.Bz` | Quot.sound, propext | C89_writer_range |
| `Simox.Bz` | propext | C98_table |
<!-- axioms end -->

## Findings

Behaviour of the code that contradicts what a user would expect; unless marked otherwise each is a
theorem about the model (a concrete witness or a universal negation).

* RLE: decompressing a one-byte buffer reads behind its end (C03).
* `WorkspaceDataArray`: `setDatum(..., 0)` counts a voxel as filled (C06); `setDataRot` does not update
  the largest entry (C05); `getMaxSummedAngleReachablity` is always 0 (C10); `binarize` with
  `minValid = 0` erases the data (C07); too large grids are read out
  of bounds (C04).
* `CSpace` pool: removing a node twice hands it out twice (C11); ids are recycled, which can close a
  cycle of parents on which `createPath` never ends (C12, C13); resetting a tree leaks its nodes (C15).
* `CSpacePath` weights are used exactly when they are switched off (C19); `createPath` can stop short of
  the goal by less than 1e-6 (C21); a sampling size of zero rejects everything (C21);
  `createPathUntilInvalid` over distance 0 does not check the configuration (C39).
* RRT: start equal to goal never succeeds (C25); a failed re-plan leaves the old path or a null pointer
  behind `getSolution`; the solution survives `reset`; a timeout discards a success although
  `getSolution` has it (C23). BiRRT: `setGoal` after success is ignored, after a failure an unchecked
  edge appears, and `getSolution` bridges unconnected nodes (C24).
* `Trajectory`: inserting a trajectory into itself at the front, interpolating on a zero length (C16, C17).
* `doPathPruning` on a single valid point never ends (C26).
* Threads: a stop request before the job begins is lost; with two clients a stop request can hit a later
  run (C27).
* `CDManager::addCollisionModel` iterates over a vector it grows; adding an object twice gives a pair
  of the object with itself (C28). A set without meshes makes `getDistance` -1; the distance of an
  object to all others includes the object itself (C29).
* Joint values: limitless joints with lower limit above 0 or upper below 0 are stored out of limits;
  `getDelta` is not the shortest turn beyond 1.5 turns; batch setters do not propagate; cyclic
  propagation never ends (C34). `setKinematicRoot` accepts any node (C35). `Robot::setConfig` always
  returns true (C30).
* `setGlobalPoseForRobotNode` with identity orientation resets the orientation and misses the target;
  `setGlobalPositionForRobotNode` misses it when the robot is rotated (C40).
* `attachChild` admits cycles; `initialize()` without arguments can leave an object with two parents;
  `setName` breaks uniqueness of names (C36).
* `Scene`: configuration queries insert empty entries that hide another robot's configurations;
  configurations survive their robot (C33).
* `GraspSet::addGrasp` admits duplicates in release builds; `removeGrasp(index)` then removes the wrong
  one; `includeGraspSet` adds to the last matching set while `getGraspSet` returns the first (C32).
* `RuntimeEnvironment`: a valid `SIMOX_DATA_PATH` does not count when `VIRTUAL_ROBOT_DATA_PATH` is
  invalid; dangling links are accepted; paths added before the first lookup precede the defaults (C37).
* `VoxelTreeND` with one level ignores positions, cannot be iterated or, when empty, saved; voxels more
  than twice the box take the logarithm of zero; the real discretization can exceed the requested one
  (C44).
* PQP: begin-after-finish leads to a double free (C46); the triangle test accepts pairs of disjoint
  triangles if one is degenerate (C45); the distance of triangles ignores faces with a squared normal up
  to 1e-15 and then can report 0 for triangles that are apart; points reported with distance 0 need not
  touch (C47); `checkCollision(model, point, tolerance)` ignores `tolerance` and uses 50 for every value
  other than 0 (C48).
* `closeActors` never returns for an actor with a joint of speed 0 that is not in collision, for step size 0
  and for two actors that move a joint against each other (C50).
* The Jacobian of `DifferentialIK` ignores joints that follow another joint by value propagation
  (C52_propagation_ignored).
* `RobotNodeRevolute::setJointRotationAxis` stores the axis without normalising it (the constructor does
  normalise); with an axis that is not a unit vector the pose update is no rigid motion.
* `CoMIK` with a coordinate system mixes frames: joint axes are converted to the coordinate system, lever
  arms (and the error in `getError`) stay global (C53_frame_wrong).
* `HierarchicalIK` keeps task priorities only with the method `eSVD`; with `eTranspose` and `eSVDDamped` (a
  damping of 10) the projection is none and lower tasks disturb higher ones (C55_others_disturb).
* `StackedIK::computeStep` tests `jacDefs[0]->isInitialized()` for every task, so later tasks that are not
  initialised are used. The double variant of the damped inverse ignores `dampedSvdLambda` and uses 1.
* `DifferentialIK` uses its coordinate system for the Jacobian but not for the error, so with a rotated one
  every step may go away from the target (C57_frame_ignored).
* `DifferentialIK::computeSteps` does not look at the goals before the first step and never compares the first
  step with the start: it can leave a robot that met its goals and report failure (C56_met_at_start), and with
  `checkImprovements` still leave it further away (C56_first_step_may_worsen).
* `GenericIKSolver::solve` stores the end of the first attempt as best configuration but keeps the error of the
  start as best error, so a worse random attempt replaces it (C58_best_lost).
* `AdvancedIKSolver::solve(object)` reports a grasp of a clone of the object's grasp set, so looking it up in the
  object's set by pointer fails (C59_copy). Without a grasp set for the end effector it dereferences a null
  pointer (`object->getGraspSet(eef)->clone()`; read off the code).
* `WorkspaceRepresentation::getVoxelFromPose` enters poses up to one and a half voxels below and half a voxel
  above the bounds although its comment says they are ignored (C60_outside_not_ignored);
  `getVoxelFromPosition` disagrees with it on the upper bounds (C60_position_disagrees).
* `getPoseFromVoxel(unsigned[6], float[6])` adds half the step instead of half the voxel edge; with an extent of
  exactly one step it gives the pose of a different voxel (C60_pose_from_voxel_leaves).
* `computeVolumeInformation` takes the cube of the step for the volume of a voxel, which is always too large
  (C62_volume_overestimated).
* `fillHoles` never fills an empty voxel; it only smooths covered ones (C62_fill_holes_fills_nothing), and with
  `minNeighbors` from 2^31 on it divides by zero (C62_fill_holes_division_by_zero).
* `getVoxelEntry` with an index from 2^31 on reads out of bounds (C62_voxel_entry_out_of_bounds);
  `getVoxelSize` accepts dimension 6 (read off the code).
* `createCutTransformations` places the cells as if they filled the extents, so the poses are not the ones the cut
  was evaluated at unless the extents are multiples of the cell size (C63_transformations_misplaced).
* `WorkspaceRepresentation::load` cannot read a file it saved itself if a multiple of 5000 (the read buffer of
  bzip2) falls into the last bytes of the compressed data: the rest of the stream is taken for the end mark
  (C64_boundary).
* `load` returns without an exception and with part of the data if the file ends within the compressed data
  (C64_cut_silent).
* `load` keeps the version of the file and `save` writes it together with data in the current format: a file of
  version 1.3 to 2.4 that is loaded and saved is lost (C64_old_version_saved).
* The number of voxels is computed in `int` in `load`: grids of 2^31 or more voxels can be saved but not loaded
  (C64_size_overflow). A representation without base node gets the TCP as base node (C64_round_trip), since an empty
  string is not read back.
* `compressData` writes one byte past its buffer for incompressible data of odd size (C65_pairs_outcome).
* `createConvexHull2D` returns the first vertex twice, with a segment of length zero, if all points have the same x;
  for all other points each vertex is returned once (C66_hull).
* `slerp` copies the z component of the result to y and the x component to z: interpolating a half turn about y with
  itself gives the zero quaternion (C75_slerp_false).
* `projectPointToPlane2D` is not the inverse of `planePoint3D`: the position of the plane is not rotated, so the local
  coordinates are shifted for planes away from the origin whose normal does not point up (C73_local_false).
* `axisangle2eigen4f` with a matrix to store to leaves the fourth row and column of it as they were (C70_axis_angle).
* `getMean` of a single quaternion returns its negative: the scalar product with the zero sum is not positive. The
  rotation is the same (C74_mean).
* `quat2hopf` snaps to the pole within 1e-6, which moves components by up to 0.0014 (C71_hopf).
* `Helpers::LimitVectorLength` (Helpers.cpp 331-347) divides by `scale` where it should multiply: vectors over the limit are made longer (C81_limit_false, C81_limit_grows).
* `ImplicitPlane::GetSignedDistance` (ImplicitPlane.cpp 69-72) returns n·p + d for a plane n·p = d: points of the plane get 2d (C80_signed_distance_false).
* `Line::IntersectsTriangle` (Line.cpp 80-128) has EPS = 0, so its test for a ray in the plane of the triangle never holds and 1/0 is computed (excluded by the hypothesis of C79_ray_triangle).
* `Helpers::AngleModPI` keeps π where `MathTools::angleModPI` gives −π (C76_shift, C76_angle_mod).
* `AbstractFunctionR1R3::MoveLengthOnCurve` divides by sqrt(1+|f'|²), the speed of the graph (t,f(t)), instead of |f'|: it does not move by the length given (C82_move_false).
* `LinearInterpolatedOrientation::Get` returns the start orientation at all times when the rate is below sqrt(0.001) rad per unit of time: slow turns, however far, are not made (C83_orientation_slow, C83_orientation_end_false).
* `Array3D::Get/Set` check the position in the vector, not the three indices: (3,0,0) in an array of size 3 is the element (0,1,0) (C84_array_alias_false).
* `MarchingCubes::VertexInterp` returns its first point if both values are within 1e-5 of the level; neighbouring cells pass the two points in different orders, so the mesh has a hole there (C86_closed_false).
* `MarchingCubes::_triTable` is an array of `char` compared with -1: on platforms where char is unsigned (ARM) the loop does not end (not modelled: the model has signed char).
* `ProcessSingleSurfaceOptimized` can return several surfaces: cells queued before the first surface was found are still processed, and start the next one (C87_single_false).
* `MarchingCubes::Calculate` does not check the start: on the upper sides of the cube its index is not a cell (C88_border_false).
* `BZ2_decompress` reads up to 32767 selectors but `selectorMtf` and `selector` have 18002 elements (CompressionBZip2.cpp 3429-3458, CompressionBZip2.h 264-265): a file can make it write outside (C97_safe_false; this is CVE-2019-12900 in the bundled copy).
* `bsW` does not check that its number fits into the number of bits: other numbers change bits written before (C89_writer_range); the callers keep to it (C95_roundtrip).
* `WilliamsMinusKernel::Kernel_ddx` and `Kernel_dxdy` have the wrong sign (C99_second_minus_false, C99_mixed_minus_false).
* `GaussianImplicitSurface3DNormals` and `GaussianImplicitSurface3DCombined` add the noise to as many rows as there are samples, but there are four rows for each: three quarters of the samples get none (C101_noise_false). `normalScale` has no effect.
* `Gravity::GravityData` keeps the children in a map by name, but sensors and attached objects may have the name of a robot node: the later one replaces the earlier, whose bodies and joints are then ignored (C102_names_false).
* `PositionConstraint::checkTolerances` tests `d <= tolerance` without absolute value for a single coordinate: any error on the negative side is accepted (C105_position_check_false).
* The position gradients of `PoseConstraint` and `TSRConstraint` are ten times too long: `posRotTradeoff` is applied once instead of twice (C104_pose_position_false).
* `TSRConstraint` multiplies an error in the frame of the region with the Jacobian in the global frame: for a region turned by pi the gradient points the wrong way (C104_tsr_false). Its constructor ignores the tolerance arguments (1.0 and 0.1 are used).
* `BalanceConstraint`: `sigmoid_prime` lacks the factor beta (gradient ten times too long), the value uses the centre of mass of the joints but the gradient the Jacobian of the bodies, `optimizationFunctionFactor` is ignored, `height` is not initialised with `considerCoMHeight` (C104_balance_false; the last not modelled). `getDifferentiableStabilityIndex` is always 0.
* `CoMConstraint::updateTarget` changes the goal of the solver but not the target used by value, gradient and check (C105_com_target_false).
* Combined selections such as X|Y have value 0 and make `checkTolerances` of position and orientation constraints throw (C105_unnamed).
* `ConstrainedOptimizationIK` gives NLopt a gradient that is scaled by 1/57 for joints that are not revolute and then normalised: it is not the gradient of the value (C106_objective_false).
* `ConstrainedOptimizationIK::currentX` is not reset by `initialize` or `solve`: after the robot was moved from outside (or after a failed `solve`, which moves it to the best attempt) the objective can be evaluated at the wrong place (C106_evaluate_false). The verdict is not affected (C106_solve).
* An exception in `ConstrainedOptimizationIK::solve` leaves visualisation and collision model updates switched off (C106_flags_false).
* Random starting points of `ConstrainedOptimizationIK` are neither clamped nor checked (C106_start_false). Its hard constraints are the functions that are not soft; the argument `hard_constraint` of `addConstraint` is ignored.
* `ConstrainedIK::removeConstraint` erases priority and hardness of a constraint that was added twice: the remaining one is no longer checked (C107_constraints_false).
* `ConstrainedIK::solve` checks the constraints only after a step: a goal that is reached already is reported as failure if the step fails (C107_already_false).
* `ConstrainedHierarchicalIK::initialize` does not reset `lastDelta`: a second run from the same place fails with the stall condition (C107_restart_false).
* `BasicGraspQualityMeasure::setContactPoints(std::vector<ContactPoint>)` has its parameter commented out and loops over the member it has just cleared: all contacts are dropped (C108_points_false).
* `ContactConeGenerator` computes the radius of the cone with `cos` instead of `sin`: the half angle is 45 degrees for every coefficient of friction, and the wrenches depend neither on the coefficient nor on the unit force (C109_coulomb_false, C109_friction_false).
* `isGraspForceClosure` returns true if no hull could be computed (fewer than four points, or qhull fails) (C110_nohull_false); a contact whose two points coincide has no direction and makes every grasp force closed (C110_touching_false).
* The quality is measured around the mean of the vertices of the hull and not around the origin: a grasp that is not force closed has positive quality (C111_origin_false). `GraspQualityMeasureWrenchSpaceNotNormalized::minOffset` takes the maximum with `FLT_MAX`: the quality is `FLT_MAX` for every grasp (C111_not_normalized_false).
* After the contacts were replaced by an empty list, `getGraspQuality` and `getVolumeGraspMeasure` answer with the hull of the old contacts (C112_stale_false). `getVolumeGraspMeasure` does not compute the object wrench space: it answers 0 until the quality was asked for (C112_volume_false).
* Not modelled, noted while reading: `ConvexHull6D::volume` and `center` are not initialised when no hull is computed, and `calculateOWS` copies that volume; `minDistanceToGWSHull` uses the hull without a check for null.
* `ApproachMovementGenerator::updateEEFPose` reads the pose of the grasp centre point but sets the pose of the tool centre point of the preshape: hands with such a preshape jump (C114_move_away_false).
* `ApproachMovementSurfaceNormal::createNewApproachPose` checks the original hand and not the moved clone after a random distance was added (C114_new_pose_false); the pose of the object is not applied to the points of its mesh (C114_object_pose_false); `useFaceAreaDistribution` of the constructor is never stored (C114_face_areas_false).
* `GenericGraspPlanner::plan` with the default time-out 0, documented as "Disabled when zero", plans no grasp (C115_timeout_false). The names of the grasps are numbered by the size of the grasp set and can coincide (C115_names_false). The demands in the evaluation are not updated by `setParameters` and reset by `clearEvaluation` (C115_reported_demands_false).
* `GraspEvaluationPoseUncertainty::generatePoses` (grid) does not end for a step that is not positive, e.g. for a configuration without an uncertainty of the position (C116_grid_ends_false), and uses `objectGP * graspCenterGP.inverse()` where the random version uses the inverse in front: for turned objects the poses are elsewhere (C116_grid_center_false).
* `GraspEvaluationPoseUncertainty::evaluatePose` reports the quality of the pose before if there are no contacts (C117_stale_false); `evaluateGrasp` returns without restoring hand and fingers if there are no contacts (C117_grasp_false).
* `BalanceConstraint` takes the value from the centre of mass of the joints and the gradient from the bodies: for other bodies they do not belong together (C104_balance_bodies_false).
* `WorkspaceGrid::getEntry`/`setEntry` truncate towards zero: positions up to one cell below the grid are taken for positions of the first cell (C118_below_false). `setEntryCheckNeighbors` leaves out the neighbours of cells at the border (C118_neighbours_false). `getEntry` is true for entries of 0 although the documentation says otherwise (C118_found_false).
* `WorkspaceGrid::getRandomPos` computes the position with the given size of a cell although the cells are smaller: the position can be in another cell or outside of the grid (C119_position_false).
* `WorkspaceGrid::MergeWorkspaceGrids` leaves the last row and column at 0 if the size divides the area (C120_last_false), uses a value that was never set if a grid does not cover the area of all (C120_areas_false) and starts the search for the upper bounds with the smallest positive number, so that grids at negative positions cannot be merged (C120_negative_false).
* `BoundingBox::isInside` is true for every point in a direction in which the box is flat (C121_inside_false), `scale` with a negative factor turns the bounds around (C121_scale_false), `planeGoesThrough` of an empty box reads a vector without elements (C121_plane_empty_false).
* `TriMeshModel::addTriangleWithFace` with a NaN vertex adds a face with vertices of another triangle (C122_nan_false); the overload with `Vector4f` colours reads component 4 of four. `addMesh` throws for meshes without colours (C122_add_uncoloured_false), `clear` keeps the normals (C122_clear_false), `setColor` sizes the colours by the vertices (C122_set_color_false), and no function that removes or moves vertices updates the bounding box (C122_box_false).
* `TriMeshModel::mergeVertices` moves corners along chains of near vertices, further than the distance (C123_merge_false).
* `TriMeshModel::addMissingNormals` tests the wrong variable: corners 2 and 3 get no normal if corner 1 has one (C124_missing_normals_false). `addMissingColors` returns the number of corners, not of new colours (C124_color_count_false). `flipOrientation` leaves colours and normals with the wrong corners (C124_flip_false). Triangles with two corners at the same place make the averaged normals NaN (C124_fatten_nan_false).
* `TriMeshModel::checkAndCorrectNormals` depends on the order of the faces: an orientable mesh can be left inconsistent (C125_order_false). With `inverted` a consistent mesh is made inconsistent (C125_inverted_false).
* `Path` with waypoints closer than about a millionth starts behind the first waypoint (C128_start_false); an exact reversal at a waypoint divides zero by zero. `Path` has no assignment operator: the segments are deleted twice after an assignment (read off the code).
* `TimeOptimalTrajectory` on a path without rounding, the default, passes corners at full speed, whatever the maximal accelerations are (C130_corner_false). A query at a negative time moves an iterator before the list (C131_negative_false), after the duration the robot moves back (C131_after_end_false). Read off the code: line 306 can dereference the end of the list of switching points; after a bisection that does not leave the limit the integration goes on from the overshoot; a copy keeps an iterator into the list of the original; `getVelocityMaxPathVelocityDeriv` reads an uninitialised index if no joint moves.
* `processRobotNode` hands the node itself to `processTransformNode`: a second `<Transform>` is ignored without a message (C133_second_false). A translation that gives only `unitsAngle` is refused (C133_units_false).
* `processLimitsNode`: without `hi`, a length sets the lower limit to 1000 mm and leaves the upper one at π (C134_missing_hi_false); without one limit the unit is forgotten, so that 90 degrees become 90 radian (C134_missing_lo_false); texts that are no unit are accepted (C134_unknown_unit_false); `Limitless` is only known in lower case (C134_limitless_case_false).
* `processJointNode` multiplies torques in newton millimeters by 1000 instead of dividing (C135_torque_false); `processConfigurationNode` divides meters by 1000 instead of multiplying (C135_configuration_false).
* `initializeRobot` ignores the result of `attachChild` and goes through a map ordered by addresses: a node that is listed twice has a parent that depends on the allocation (C137_addresses_false); cycles beside the root are accepted (C137_cycle_false), and a root that is a child leads to an endless recursion (C137_root_false). Read off the code: in `processChildFromRobotNode` the counter is never raised, so a missing file is never reported, and `importEEF` is ignored.
* `processRobotAttributes` locks twice: two threads can get the same name (C138_threads_false); types `arm` and `arm_1` collide (C138_types_false).
* `cloneInversed` attaches the branches of the nodes on the way to the new root behind the inverted joint: they move with the wrong body (C139_branch_false). The shape and the mass of the new root are lost, even if the root stays the same (C139_shape_false, C139_mass_false). An unknown name is a null pointer. Read off the code: the inertia matrix is moved without being rotated, and the joint values of the new robot are 0.
* `RobotNode::_clone` scales the fixed transformation of a node but neither direction nor limits nor offset of a translational joint (C140_prismatic_false). It makes nodes with Denavit-Hartenberg parameters again from the parameters, which `cloneChangeStructure` has not updated: the copy of an inverted robot is another robot (C140_dh_false).
* `cloneSubSet` starts with the global pose of the parent and then sets the global pose of the robot: the base pose is applied twice (C141_base_false). `accumulateTransformations` multiplies the pose of the goal by the inverse of the start from the wrong side (C141_between_false). Read off the code: the united nodes have no centre of mass, and `cloneUniteSubsets` ignores the root in its list.
* `STLReader` reads binary files that end too early without an error, from memory that was never written (C142_truncated_false). The number of triangles is read with a sign, so that binary files with 2^31 triangles or more are taken for text (C143_many_false). Text files with less than 84 bytes end in an exception (C143_short_false). A solid whose name contains `outer` loses its first triangle (C144_name_false). Read off the code: the map from corners to vertices compares with a tolerance, which is no strict weak order.
* `MujocoIO` writes a document for the present joint values, whose joints are zero there (C145_values_false), does not scale the places of joints that come from merged bodies (C149_joint_false), nor the ranges of the actuators of slides (C150_range_false). Read off the code: `scaleLengths` is called only for the body of the robot; called for the document it would scale the ranges of hinges' actuators too.
* `MasslessBodySanitizer` multiplies the poses of bodies that are merged one after the other in the wrong order (C147_order_false), moves sites of merged bodies with a joint that did not move them (C147_site_false), gives names of bodies that do not exist (C148_names_false, C148_site_false), and does not forget the bodies it merged for an earlier document (C148_again_false).
* `TorqueMotorController` ignores the torque if position or velocity, but not both, are controlled too (C152_torque_false). `VelocityMotorController` never limits the jerk (C153_jerk_false: the code is commented out), keeps errors of positions while positions are not controlled (C153_stale_false), lets a velocity set from outside stay beyond the limit (C153_current_false), and passes positions if accelerations are limited (C154_overshoot_false).
* `Histogram::applyMedianFilter` subtracts unsigned numbers and reads in front of the first bin for every histogram, also with its default argument (C156_median_false). `getMinBinValue` gives the value of the fullest bin (C156_least_false), values of bins are not their centres (C156_centre_false), values below the lower limit and constant data are undefined (C155_below_false, C155_data_false).
* `ColorMap::getColor` gives a black, fully transparent colour at the position of two equal first keys (C157_equal_false). `ColorMap::customColorMap` adds up rounded positions: with 11 colours the last key is at 1 + 2^-23 and is rejected (C158_round_false).
* `SphereApproximator::generateGraph` does not empty the lists of faces of a result that is used again (C159_reuse_false). For radii below 10⁻⁶ all midpoints are taken for the first vertex (C160_small_false, C161_short_false).
* `ApproachDiscretization::addCSpaceNode` accepts the number of faces as the id of a face (C162_ids_false); `getGoodRatedNode` goes on drawing faces that have become empty and can miss the nodes that are left (C162_missed_false).
* `DynamicsRobot::enableSelfCollisions(false)` followed by `(true)` lets linked bodies collide (C163_self_false). `BulletEngine::addRobot` adds bodies and links of a wrapper that is then rejected (C164_rejected_false); `removeRobot` and `detachObject` switch collisions on that the user had switched off (C164_remove_false, C165_detach_false); an object attached twice is detached with an error (C165_twice_false).
* `DynamicsRobot::actuateNodeVel` reads the iterator at the end for a joint without a target and a velocity of zero (C166_stop_false). In torque mode the default maximal torque −1 turns every torque round (C167_torque_false). The joint value offset of a link is added to the target before it is compared with the joint value (C167_offset_false). A torque for a joint without a link is accepted and then every step throws (C167_throws_false).
* `GraspIkRrt::plan` leaves the robot's visualization switched off after a timeout or an exception (C170_visualization_false; the same code is in `BiRrt::plan`). `searchNewGoal` removes the grasp from a set of copies by its address, so nothing is ever removed (C170_working_set_false). After a failed plan `getSolution` joins the two trees without a check (C169_failed_plan_bridges).
* `ElasticBandProcessor` does not check for collisions: points farther than 300 from an obstacle ignore it and may be drawn into it (C172_collision_false), and points in collision are not moved (C172_stuck). Paths with fewer than two points make it throw (C172_throws). `getForces` overwrites the index of the previous point with that of the next one (not modelled).
* `PoseQualityManipulability`: a single joint has the ratio 0 (C173_one_joint_false), and in `PoseQualityExtendedManipulability` the largest float (C175_one_joint_false). Joints outside their limits make the quality negative, or positive again if there are two of them (C174_outside_false). `penJointLimits_k` is not initialised until `penalizeJointLimits` is called.
* `PoseQualityExtendedManipulability`: standing at a joint limit is penalized less than being near it (C175_at_limit_false). Coordinates in which the obstacle is neither in front nor behind are penalized in their negative direction (C175_perpendicular_false).
* `Manipulability::addPose` compares and writes without a lock, so threads can replace a better entry by a worse one (C177_threads_false). `getCurrentManipulability` ignores the node sets it is given and uses those of the original robot (C177_self_distance_false). `clone` does not copy the parameters of the self distance.
* `RobotNodeSet::isKinematicChain` and `getMaximumExtension` loop to `size() - 1` and read outside of the vector for an empty set (C180_empty_false). The maximum extension uses the current values of translational joints and is no bound for other ones (C180_prismatic_false). `LinkedCoordinate::getInFrame` fails for a coordinate that was not set, against its documentation (C179_unset_false). Without mass the centre of mass is the origin of the world (C181_massless_false).
* `SupportPolygon::getStabilityIndex` compares with the centre of the bounding box. Where this point is on the border of the polygon (three contacts at a right angle) the index is 0 for every centre of mass (C183_corner_false). `CoMIK::computeSteps` and `HierarchicalIKSolver::computeSteps` ignore the tolerances at the start (C184_solved_start_false). `JointLimitAvoidanceJacobi::checkTolerances` always says no, and with it a hierarchical solver never succeeds (C184_never_solved).
* `MeshConverter::RefineObjectSurface` does not check its length: with one that is not positive it recurses for ever on any mesh with a proper edge (C186_diverges). It does not check the indices of faces either (C186_invalid).
* `GazeIK::solve` overwrites the virtual joint before anything is tested, and `trySolve` ignores the result of its first `checkTolerances`: a robot in a solution can be told no, and is then left further from the goal than before (C188_solved_start_false).
* `BulletRobotLogger::log` compares with `>` and keeps `max_samples + 1` samples (C191_max_false). Its time stands still while logging is switched off, so that a pause does not show in the file (C191_pause_false).
* Read off the code, not proved: `CSpacePath::interpolate` at the end stores an index one past the last
  point; `doShortcut` returns the sum instead of the difference of counts;
  a mesh without faces leaves `PQP_Distance` without result, and `getMinDistance` then returns
  uninitialised values; `Meigen` leaves its results uninitialised after 50 sweeps.
