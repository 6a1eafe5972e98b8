{"id": "C01", "title": "RLE compression is lossless", "statement": "Decompressing the bytes that RLE_Compress produced for a non-empty buffer writes exactly the original bytes, in order and nothing else.", "quantifier": "all non-empty byte buffers of any length (every byte content, every run length including runs longer than 32768)", "why_tests_cant": "the input space is infinite; marker choice, run splitting at 32768 and the 1/2-byte count encoding interact", "anchors": ["VirtualRobot/Compression/CompressionRLE.cpp: CompressionRLE::RLE_Compress", "VirtualRobot/Compression/CompressionRLE.cpp: CompressionRLE::RLE_Uncompress", "VirtualRobot/Compression/CompressionRLE.cpp: _RLE_WriteRep", "VirtualRobot/Compression/CompressionRLE.cpp: _RLE_WriteNonRep"]}
{"id": "C02", "title": "RLE output never exceeds the documented buffer", "statement": "For n input bytes RLE_Compress writes at most n + n/256 + 1 bytes, the buffer size the documentation tells the caller to allocate.", "quantifier": "all non-empty byte buffers", "why_tests_cant": "worst case depends on the histogram over the whole buffer; a violated bound is a heap overflow on some rare input", "anchors": ["VirtualRobot/Compression/CompressionRLE.cpp: CompressionRLE::RLE_Compress (comment 161-162 and header comment 32-33)"]}
{"id": "C03", "title": "RLE decoder stays inside the compressed buffer", "statement": "On any buffer produced by RLE_Compress, RLE_Uncompress reads exactly the bytes of that buffer and never past its end; on a truncated buffer (e.g. a single byte) it reads out of bounds.", "quantifier": "all non-empty inputs to the compressor", "why_tests_cant": "out-of-bounds reads are undefined behaviour and usually invisible to a test", "anchors": ["VirtualRobot/Compression/CompressionRLE.cpp: CompressionRLE::RLE_Uncompress"]}
{"id": "C04", "title": "Workspace voxel store behaves as a map", "statement": "After any sequence of operations on a workspace voxel array of any size, reading a voxel inside the grid returns the value last written to that voxel (0 if never written), and writing one voxel changes no other voxel; blocks that were never touched read as 0.", "quantifier": "all grid sizes, all in-range voxel coordinates, all operation histories", "why_tests_cant": "index flattening must be injective for every grid size; aliasing shows up only for particular size/coordinate combinations", "anchors": ["VirtualRobot/Workspace/WorkspaceDataArray.cpp: setDatum", "VirtualRobot/Workspace/WorkspaceDataArray.cpp: get", "VirtualRobot/Workspace/WorkspaceDataArray.h: getPos", "VirtualRobot/Workspace/WorkspaceDataArray.cpp: ensureData"]}
{"id": "C05", "title": "getMaxEntry bounds every voxel", "statement": "At every moment getMaxEntry() is at least the value stored in each voxel, whatever sequence of setDatum, increaseDatum, setDatumCheckNeighbors, bisectData, binarize, clear and clone was executed.", "quantifier": "all histories of those operations from construction", "why_tests_cant": "needs an invariant over unbounded histories including overflow bisection", "anchors": ["VirtualRobot/Workspace/WorkspaceDataArray.cpp: setDatum", "VirtualRobot/Workspace/WorkspaceDataArray.cpp: increaseDatum", "VirtualRobot/Workspace/WorkspaceDataArray.cpp: bisectData", "VirtualRobot/Workspace/WorkspaceDataArray.cpp: binarize", "VirtualRobot/Workspace/WorkspaceData.h: getMaxEntry"]}
{"id": "C06", "title": "getVoxelFilledCount counts the non-empty voxels", "statement": "getVoxelFilledCount() equals the number of voxels with a non-zero entry (the code violates this when 0 is written with setDatum to an empty voxel or over a filled one).", "quantifier": "all histories of operations", "why_tests_cant": "counter drift accumulates over histories", "anchors": ["VirtualRobot/Workspace/WorkspaceDataArray.cpp: setDatum", "VirtualRobot/Workspace/WorkspaceDataArray.cpp: increaseDatum"]}
{"id": "C07", "title": "Reachability information is never lost by statistics updates", "statement": "increaseDatum, bisectData and binarize never make a reachable voxel (entry > 0) unreachable, for any minimum valid value >= 1.", "quantifier": "all states reachable by any history", "why_tests_cant": "the overflow branch needs 255 hits and depends on minValidValue", "anchors": ["VirtualRobot/Workspace/WorkspaceDataArray.cpp: increaseDatum", "VirtualRobot/Workspace/WorkspaceDataArray.cpp: bisectData", "VirtualRobot/Workspace/WorkspaceDataArray.cpp: binarize"]}
{"id": "C08", "title": "Voxel hit counts are exact until overflow", "statement": "A voxel that was increased k times, starting from a cleared array, holds exactly k as long as no voxel was hit more than 255 times; without overflow adjustment a voxel saturates at 255.", "quantifier": "all interleavings of increments over all voxels", "why_tests_cant": "unbounded histories and interleavings", "anchors": ["VirtualRobot/Workspace/WorkspaceDataArray.cpp: increaseDatum"]}
{"id": "C09", "title": "Neighbourhood writes stay in range", "statement": "setDatumCheckNeighbors sets every voxel of the clipped neighbourhood to at least the value, touches no voxel outside that neighbourhood, never lowers a neighbour and never leaves the grid.", "quantifier": "all grids, centre voxels inside the grid, values and neighbourhood radii", "why_tests_cant": "six-dimensional clipping at every border combination", "anchors": ["VirtualRobot/Workspace/WorkspaceDataArray.cpp: setDatumCheckNeighbors"]}
{"id": "C10", "title": "Summed reachability query", "statement": "getMaxSummedAngleReachablity() returns the largest sum of entries over the orientation block of a position (the code returns 0 always because the emptiness check is inverted).", "quantifier": "all workspace contents", "why_tests_cant": "a test on an empty workspace passes; the claim is about every content", "anchors": ["VirtualRobot/Workspace/WorkspaceDataArray.cpp: getMaxSummedAngleReachablity", "VirtualRobot/Workspace/WorkspaceDataArray.cpp: sumAngleReachabilities"]}
{"id": "C11", "title": "C-space nodes are never handed out twice", "statement": "Over any history of node creation and removal of nodes in use, every node in use has an ID distinct from all other nodes in use, the number of nodes in use plus free nodes equals the capacity, and creation fails exactly when all nodes are in use.", "quantifier": "all histories of createNewNode / removeNode / reset", "why_tests_cant": "unbounded histories", "anchors": ["MotionPlanning/CSpace/CSpace.cpp: createNewNode", "MotionPlanning/CSpace/CSpace.cpp: removeNode", "MotionPlanning/CSpace/CSpace.cpp: reset", "MotionPlanning/CSpace/CSpace.cpp: CSpace"]}
{"id": "C12", "title": "RRT tree lookups are consistent", "statement": "After any history of appends, removals and resets, looking up the ID of a node of the tree yields that node, hasNode agrees with the node list and the number of nodes reported equals the number of distinct nodes.", "quantifier": "all histories of tree operations", "why_tests_cant": "unbounded histories; nodes recycled by the pool", "anchors": ["MotionPlanning/CSpace/CSpaceTree.cpp: appendNode", "MotionPlanning/CSpace/CSpaceTree.cpp: removeNode", "MotionPlanning/CSpace/CSpaceTree.cpp: getNode", "MotionPlanning/CSpace/CSpaceTree.cpp: hasNode"]}
{"id": "C13", "title": "Tree paths are correct", "statement": "If createPath(start, goal) reports success, the resulting path starts at the start node's configuration, ends at the goal node's configuration, and every consecutive pair is a parent/child pair of the tree; it succeeds exactly when start is an ancestor of goal (or goal itself); and it terminates on every tree built by appending.", "quantifier": "all trees built by appending, all node pairs", "why_tests_cant": "recursion over unboundedly deep trees", "anchors": ["MotionPlanning/CSpace/CSpaceTree.cpp: createPath", "MotionPlanning/CSpace/CSpaceTree.cpp: appendPath"]}
{"id": "C14", "title": "Nearest neighbour is nearest", "statement": "The node returned by a nearest-neighbour query is a node of the tree and no node of the tree is closer to the query configuration; among equally near ones the earliest added is returned.", "quantifier": "all non-empty trees, all query configurations", "why_tests_cant": "linear search correctness over all sizes and all metrics", "anchors": ["MotionPlanning/CSpace/CSpaceTree.cpp: getNearestNeighborID"]}
{"id": "C15", "title": "Resetting a tree releases its nodes", "statement": "After resetting a tree the capacity of the C-space is available again (the code leaks: the nodes of a reset tree are never returned to the C-space).", "quantifier": "all trees and all capacities", "why_tests_cant": "leak shows up only after enough re-plannings", "anchors": ["MotionPlanning/CSpace/CSpaceTree.cpp: reset", "MotionPlanning/CSpace/CSpace.cpp: createNewNode"]}
{"id": "C16", "title": "Trajectory editing laws", "statement": "Inserting, erasing and appending via-points shift exactly the documented entries, never change the other points or their order, and change nothing when the position is out of range; sub-paths and clones contain exactly the requested points; reversing twice is the identity; no edit invents points. (Inserting a trajectory into itself is the exception: it yields wrong points unless appended at the end.)", "quantifier": "all trajectories, positions and points", "why_tests_cant": "sequences of any length and all positions", "anchors": ["VirtualRobot/Trajectory.cpp: insertPosition", "VirtualRobot/Trajectory.cpp: erasePosition", "VirtualRobot/Trajectory.cpp: removePositions", "VirtualRobot/Trajectory.cpp: insertTrajectory", "VirtualRobot/Trajectory.cpp: reverse"]}
{"id": "C17", "title": "Trajectory interpolation", "statement": "interpolate(t) returns the first point for t<=0 and the last point for t>=1 with their indices; for t in between on a trajectory of positive length a point on the segment whose index is reported, at exactly fraction t of the total length (a trajectory of length zero yields its point with index -1); the position moves with speed at most the total length, and interpolating the reversed trajectory walks it backwards.", "quantifier": "all trajectories, all real t", "why_tests_cant": "search over unbounded number of segments, continuous parameter", "anchors": ["VirtualRobot/Trajectory.cpp: interpolate", "VirtualRobot/Trajectory.cpp: getLength"]}
{"id": "C18", "title": "Path length laws", "statement": "Path length is additive over concatenation, invariant under reversal, and never below the straight-line distance of its endpoints.", "quantifier": "all paths over any metric", "why_tests_cant": "induction over path length", "anchors": ["VirtualRobot/Trajectory.cpp: getLength", "MotionPlanning/CSpace/CSpacePath.cpp: getLength"]}
{"id": "C19", "title": "C-space metric weights are honoured by the path length", "statement": "getLength(useCSpaceWeights) measures with metric weights exactly when asked to (the code passes the flag inverted), so getTime is not normalised to 1 at the last point when weights are used.", "quantifier": "all paths, all weights", "why_tests_cant": "two booleans with inverted meaning cancel for unit weights, which is what tests use", "anchors": ["MotionPlanning/CSpace/CSpacePath.cpp: getLength", "MotionPlanning/CSpace/CSpacePath.cpp: getTime", "MotionPlanning/CSpace/CSpace.cpp: calcDist"]}
{"id": "C20", "title": "Boundary clamping", "statement": "respectBoundaries always yields a configuration inside the boundary, leaves configurations inside unchanged and is idempotent; setBoundary accepts limits in either order.", "quantifier": "all configurations and boundary boxes", "why_tests_cant": "all dimensions and real values", "anchors": ["MotionPlanning/CSpace/CSpace.cpp: respectBoundaries", "MotionPlanning/CSpace/CSpace.cpp: isInBoundary", "MotionPlanning/CSpace/CSpace.cpp: setBoundary"]}
{"id": "C21", "title": "Sampled paths connect start and goal", "statement": "createPath(start, goal) of a sampled C-space begins with start, ends with goal, and consecutive configurations are never further apart than (1.05 times) the sampling size.", "quantifier": "all start/goal configurations and sampling sizes", "why_tests_cant": "iterated interpolation of unbounded length", "anchors": ["MotionPlanning/CSpace/CSpaceSampled.cpp: createPath"]}
{"id": "C22", "title": "Path validity is sound at the discretisation", "statement": "If isPathValid(q1,q2) reports true, the goal end q2 is valid and there is a chain of valid configurations from q1 to q2 with consecutive distances at most the DCD sampling size; if it reports false for a reason other than a stop request or the depth limit, some tested configuration was invalid.", "quantifier": "all configuration pairs, metrics and validity predicates", "why_tests_cant": "recursive bisection of any depth", "anchors": ["MotionPlanning/CSpace/CSpaceSampled.cpp: isPathValid"]}
{"id": "C23", "title": "RRT solutions connect start to goal through validated nodes", "statement": "Whenever the RRT planner reports success, the solution path starts at the start configuration, ends at the goal configuration, and every configuration on it other than the start was produced by a local path that passed the validity check.", "quantifier": "all random sample sequences, validity predicates, planner modes and iteration budgets", "why_tests_cant": "probabilistic planner: every random schedule", "anchors": ["MotionPlanning/Planner/Rrt.cpp: plan", "MotionPlanning/Planner/Rrt.cpp: extend", "MotionPlanning/Planner/Rrt.cpp: connectComplete", "MotionPlanning/Planner/Rrt.cpp: connectUntilCollision", "MotionPlanning/Planner/Rrt.cpp: createSolution"]}
{"id": "C24", "title": "Bi-directional RRT solutions connect start to goal", "statement": "Whenever the BiRRT planner reports success, the solution starts at the start configuration, ends at the goal configuration and each consecutive pair is a validated tree edge of one of the two trees; the connecting configuration appears once.", "quantifier": "all random sample sequences and modes", "why_tests_cant": "every random schedule; two trees meeting anywhere", "anchors": ["MotionPlanning/Planner/BiRrt.cpp: plan", "MotionPlanning/Planner/BiRrt.cpp: createSolution"]}
{"id": "C25", "title": "Planning from a configuration to itself", "statement": "Planning with the RRT from a configuration to itself on a sampled C-space is not a trivial success: it never reports success, whatever the mode, the random choices and the earlier calls, because a one-point local path counts as an error. Callers must treat start equal to goal themselves.", "quantifier": "all histories of calls, validity predicates, modes, cycle limits and sample sequences", "why_tests_cant": "depends on every random schedule", "anchors": ["MotionPlanning/Planner/Rrt.cpp: plan", "MotionPlanning/CSpace/CSpaceTree.cpp: appendPath"]}
{"id": "C26", "title": "Shortcutting and pruning preserve the solution", "statement": "Every shortcut step keeps the first and last configuration of the solution, only introduces configurations taken from a validated local path and never increases the path length; the result of pruning is a subsequence of the path with the same ends whose new edges were validated and in which no further point can be removed; the one exception, a path with a single configuration, is identified (pruning it does not terminate).", "quantifier": "all solutions, all candidate choices, any number of rounds", "why_tests_cant": "random candidate choice, unbounded rounds", "anchors": ["MotionPlanning/PostProcessing/ShortcutProcessor.cpp: doShortcut", "MotionPlanning/PostProcessing/ShortcutProcessor.cpp: shortenSolutionRandom", "MotionPlanning/PostProcessing/ShortcutProcessor.cpp: validShortcut"]}
{"id": "C27", "title": "Planning thread hand-over", "statement": "Under every interleaving of any number of client threads and the worker, at most one worker runs, isRunning() is true exactly while one does, a result is visible only after the job started last has returned it, a stop request that reaches the running job ends the thread after boundedly many worker steps, and with one client nothing runs when stop() returns from waiting; a request issued before the job has begun is lost, and with two clients a request can hit a later run (both shown as violations).", "quantifier": "all interleavings of start/interrupt/stop/isRunning/getProcessedPath calls of any number of clients with the worker", "why_tests_cant": "schedules", "anchors": ["MotionPlanning/Planner/PlanningThread.cpp: start", "MotionPlanning/Planner/PlanningThread.cpp: interrupt", "MotionPlanning/Planner/PlanningThread.cpp: workingMethod", "MotionPlanning/PostProcessing/PathProcessingThread.cpp: start"]}
{"id": "C28", "title": "Collision manager checks exactly the registered pairs", "statement": "After any history of registrations that runs without undefined behaviour, isInCollision() is true exactly when, for some registered pair of object sets, an object of the one collides with an object of the other; the registered pairs are exactly those given to addCollisionModelPair, plus, for each set given to addCollisionModel, its pairing with every other set that was a member before. Registrations through addCollisionModelPair are always defined; addCollisionModel is not (it appends to the list it iterates over), and registering the same object twice makes it collide with itself forever.", "quantifier": "all registration histories and collision relations", "why_tests_cant": "histories; pairs added directly or by model", "anchors": ["VirtualRobot/CollisionDetection/CDManager.cpp: addCollisionModel", "VirtualRobot/CollisionDetection/CDManager.cpp: addCollisionModelPair", "VirtualRobot/CollisionDetection/CDManager.cpp: isInCollision"]}
{"id": "C29", "title": "Collision manager distance is the minimum", "statement": "getDistance() returns the minimum distance over all registered pairs and the largest float when there is none; the variants that also return closest points agree with it. A registered set without any mesh makes the result -1, and the closest-point variant of getDistance(set) does not leave out the set itself, unlike the plain one.", "quantifier": "all registration histories, all distance functions", "why_tests_cant": "minimum over unbounded pair sets", "anchors": ["VirtualRobot/CollisionDetection/CDManager.cpp: getDistance"]}
{"id": "C30", "title": "Applying a robot configuration is all or nothing", "statement": "Applying a stored configuration to a robot either sets every joint it lists (clamped to the limits) or, when a joint is missing, changes no joint and reports failure; joints not listed keep their value. A configuration holds one value per joint and only joints of its robot; a configuration read from a robot restores all its joint values and poses later; cloning keeps exactly the joints the new robot has. Robot::setConfig reports success even when nothing was applied.", "quantifier": "all configurations, robots and joint values", "why_tests_cant": "all maps", "anchors": ["VirtualRobot/RobotConfig.cpp: setJointValues", "VirtualRobot/RobotConfig.cpp: setConfig", "VirtualRobot/RobotConfig.cpp: getConfig"]}
{"id": "C31", "title": "Scene object sets have no duplicates and one collision checker", "statement": "After any sequence of add/remove calls an object set contains no object twice, all members use the set's collision checker, add reports success exactly when the object was added, and bulk adding stops at the first failure keeping the earlier ones.", "quantifier": "all histories", "why_tests_cant": "histories", "anchors": ["VirtualRobot/SceneObjectSet.cpp: addSceneObject", "VirtualRobot/SceneObjectSet.cpp: addSceneObjects", "VirtualRobot/SceneObjectSet.cpp: removeSceneObject"]}
{"id": "C32", "title": "Grasp sets", "statement": "In a debug build a grasp set never contains the same grasp twice, nor one of another robot type or end effector, whatever calls are made (asserts stop the program instead); in a release build this holds as long as only absent grasps are added. Including a set adds exactly the missing grasps once, in order; removing takes out exactly one; cloning gives new grasps with the same data in the same order and changes nothing else; lookup by name returns the first grasp added with that name. A manipulation object includes grasps into the set that its lookup by robot type and end effector returns, provided there is only one such set.", "quantifier": "all histories", "why_tests_cant": "histories", "anchors": ["VirtualRobot/Grasping/GraspSet.cpp: addGrasp", "VirtualRobot/Grasping/GraspSet.cpp: includeGraspSet", "VirtualRobot/Grasping/GraspSet.cpp: removeGrasp", "VirtualRobot/Grasping/GraspSet.cpp: getGrasp"]}
{"id": "C33", "title": "Scene registry", "statement": "For each kind of scene entity, after any sequence of register/deregister calls the entity is present exactly if it was registered and not deregistered since, registering twice has no effect, lookups by name return the first registered entity of that name, and operations on one kind never affect another. Robot configurations are kept per robot name: they outlive the de-registration of their robot, and asking for a configuration of an unknown robot creates an empty entry.", "quantifier": "all histories of registry operations", "why_tests_cant": "histories", "anchors": ["VirtualRobot/Scene.cpp: registerRobot", "VirtualRobot/Scene.cpp: deRegisterRobot", "VirtualRobot/Scene.cpp: getRobot", "VirtualRobot/Scene.cpp: registerRobotConfig"]}
{"id": "C34", "title": "Joint values respect joint limits", "statement": "After setting a joint value on a joint with enforced limits the stored value is the point of [lo,hi] nearest to the request. On limitless joints whose limits contain zero and span at least one turn, the stored value lies within the limits and differs from the request by whole turns; outside that case the code stores a wrong angle (positive lower limit) or a value outside the limits (negative upper limit). checkJointLimits accepts exactly the values in [lo,hi]; getDelta on a limitless joint always leads to the target angle, by the short way for targets less than one and a half turns away.", "quantifier": "all joint values, limits and joint kinds", "why_tests_cant": "real-valued domain; wrap-around for any magnitude", "anchors": ["VirtualRobot/Nodes/RobotNode.cpp: setJointValueNoUpdate", "VirtualRobot/Nodes/RobotNode.cpp: setJointValueNotInitialized", "VirtualRobot/Nodes/RobotNode.cpp: respectJointLimits", "VirtualRobot/Nodes/RobotNode.cpp: checkJointLimits", "VirtualRobot/Nodes/RobotNode.cpp: getDelta"]}
{"id": "C35", "title": "Forward kinematics is consistent over the kinematic tree", "statement": "After setting joint values through the robot, the global pose of every node equals the product of the local transformations along the chain from the robot's base, for every tree shape, and this stays so under any further history of joint setters, configurations, node sets whose kinematic root is above their joints, and moves of the robot. Setting a single joint also sets the joints it drives by propagation, and terminates if the links are acyclic; batch setters do not propagate. A kinematic root set by setKinematicRoot is not checked and can leave stale poses.", "quantifier": "all trees, joint values, base poses", "why_tests_cant": "structural induction over arbitrary trees", "anchors": ["VirtualRobot/Nodes/RobotNode.cpp: updatePose", "VirtualRobot/Nodes/RobotNode.cpp: updateTransformationMatrices", "VirtualRobot/Nodes/RobotNode.cpp: propagateJointValue", "VirtualRobot/SceneObject.cpp: updatePose", "VirtualRobot/Robot.cpp: setJointValues", "VirtualRobot/Robot.cpp: setGlobalPose", "VirtualRobot/RobotNodeSet.cpp: setJointValues", "VirtualRobot/RobotNodeSet.cpp: isKinematicRoot"]}
{"id": "C36", "title": "Attaching objects keeps a forest", "statement": "After any history of attach/detach, parent and child links agree, every object has at most one parent and siblings have distinct names; the objects form a forest as long as no object is attached below itself (attachChild does not check this: after such a call a pose update does not return). Setting the pose of an object moves all its descendants rigidly. Renaming an object or re-initializing an attached one is outside the guarantee.", "quantifier": "all histories of attach/detach", "why_tests_cant": "histories", "anchors": ["VirtualRobot/SceneObject.cpp: attachChild", "VirtualRobot/SceneObject.cpp: detachChild", "VirtualRobot/SceneObject.cpp: hasChild"]}
{"id": "C37", "title": "Data file lookup order", "statement": "getDataFileAbsolute returns the name itself if it is a regular file as given, otherwise the name below the first registered data path under which it is a regular file, and fails exactly when neither exists, leaving the name unchanged. Data paths are never removed or reordered; the default paths are added exactly once, at the first lookup, so that paths added before precede them and paths added later follow them.", "quantifier": "all file systems (changing between calls), configurations, path lists, names and histories", "why_tests_cant": "all environment histories", "anchors": ["VirtualRobot/RuntimeEnvironment.cpp: getDataFileAbsolute", "VirtualRobot/RuntimeEnvironment.cpp: addDataPath"]}
{"id": "C38", "title": "C-space distance is a metric and interpolation is proportional", "statement": "calcDist is symmetric, non-negative, zero exactly for configurations that agree (up to full turns in borderless dimensions) and satisfies the triangle inequality; borderless dimensions are measured along the shorter arc; interpolating by a fraction f divides the distance in the proportion f : 1-f.", "quantifier": "all configurations, weights, mixtures of borderless and bounded dimensions, fractions in [0,1]", "why_tests_cant": "real-valued inputs, wrap-around cases in any number of dimensions", "anchors": ["MotionPlanning/CSpace/CSpace.cpp: calcDist", "MotionPlanning/CSpace/CSpace.cpp: interpolate", "VirtualRobot/MathTools.cpp: AngleDelta", "VirtualRobot/MathTools.cpp: angleModX"]}
{"id": "C39", "title": "Local paths stop at the first invalid configuration", "statement": "createPathUntilInvalid terminates, starts with the start configuration, adds only configurations reached through validated steps no longer than the DCD sampling size, and reports the full length only if the goal was reached and is valid.", "quantifier": "all configuration pairs, validity predicates and sampling sizes", "why_tests_cant": "loop of unbounded length over real-valued configurations", "anchors": ["MotionPlanning/CSpace/CSpaceSampled.cpp: createPathUntilInvalid"]}
{"id": "C40", "title": "Placing a robot by one of its nodes", "statement": "setGlobalPoseForRobotNode moves the robot so that the given node ends up at the given global pose, with joint values unchanged; setGlobalPositionForRobotNode so that it ends up at the given position.", "quantifier": "all trees, joint values, nodes, robot and target poses", "why_tests_cant": "all poses and chains; the special case of an axis-parallel target is a different code path", "anchors": ["VirtualRobot/Robot.cpp: setGlobalPoseForRobotNode", "VirtualRobot/Robot.cpp: getGlobalPoseForRobotNode", "VirtualRobot/Robot.cpp: getGlobalPositionForRobotNode"]}
{"id": "C41", "title": "Coordinate frame conversions are consistent", "statement": "Conversions between an object's local and global coordinates are inverse to each other for poses and positions; the transformation between two objects composes, inverts, and takes coordinates in the other object's frame to coordinates of the same global pose in the own frame.", "quantifier": "all poses, positions and objects", "why_tests_cant": "all rigid poses", "anchors": ["VirtualRobot/SceneObject.cpp: toLocalCoordinateSystem", "VirtualRobot/SceneObject.cpp: toGlobalCoordinateSystem", "VirtualRobot/SceneObject.cpp: getTransformationTo", "VirtualRobot/SceneObject.cpp: transformTo"]}
{"id": "C42", "title": "Grasp poses", "statement": "For every grasp, the conversions between object pose and tool center point pose are inverse to each other; for a robot of the grasp's type whose tool center point is at pose t the target pose is the object pose for t, another robot type throws, and without end effector or tool center point the identity is returned.", "quantifier": "all grasps, poses and robots", "why_tests_cant": "ranges over all rigid transformations", "anchors": ["VirtualRobot/Grasping/Grasp.cpp: getTargetPoseGlobal", "VirtualRobot/Grasping/Grasp.cpp: getTcpPoseGlobal", "VirtualRobot/Grasping/Grasp.cpp: getObjectTargetPoseGlobal"]}
{"id": "C43", "title": "Runtime parameters", "statement": "A parameter has the value stored last (a command line stores the first value it gives for a known key), unset parameters give the default; a file parameter resolves to the stored file if it can be found, else to the standard file if it can be found, else to the standard name; toVector3f accepts exactly the strings (x,y,z) whose three comma-free parts denote finite numbers and yields them.", "quantifier": "all histories, strings, file systems", "why_tests_cant": "all strings and histories", "anchors": ["VirtualRobot/RuntimeEnvironment.cpp: addKeyValuePair", "VirtualRobot/RuntimeEnvironment.cpp: getValue", "VirtualRobot/RuntimeEnvironment.cpp: checkValidFileParameter", "VirtualRobot/RuntimeEnvironment.cpp: toVector3f", "VirtualRobot/RuntimeEnvironment.cpp: processCommandLine"]}
{"id": "C44", "title": "Voxel trees are maps from grid voxels to entries", "statement": "After any sequence of setEntry calls on a newly constructed VoxelTreeND, getEntry at a position inside the box returns the value of the last successful setEntry whose position lies in the same voxel of the regular grid with the real discretization, and nothing if there is none; setEntry succeeds exactly for positions inside the box; a position outside yields nothing (for trees of at least two levels); getLeafElement's voxel centre is within half a voxel; the real discretization is positive and less than 1.5 times the requested one; getAllLeafs for a partial position returns exactly the leaves matching in the given dimensions, each once, and getMaxEntry a maximal one of them; the number of elements equals the ids given out; save followed by load reproduces the tree; an ElementIterator delivers every leaf exactly once and then null.", "quantifier": "all dimensions N, boxes and discretizations accepted by the constructor, all sequences of setEntry calls with arbitrary positions and values, all query positions and numbers of given coordinates", "why_tests_cant": "the behaviour depends on the whole history of writes and on the position of each query relative to every voxel boundary on every level; tests sample a few positions and dimensions", "anchors": ["VirtualRobot/Workspace/VoxelTreeND.hpp: VoxelTreeND::VoxelTreeND, setEntry, getEntry, getLeafElement, getMaxEntry, getAllLeafs, save, load, ElementIterator", "VirtualRobot/Workspace/VoxelTreeNDElement.hpp: setEntry, getEntry, hasEntry, getLeaf, maxLeaf, getAllLeafs, getAllChildrenIndx, createChild, collectElements, write, read, propagateData, getNextChild"]}
{"id": "C45", "title": "Mesh collision queries are exact", "statement": "CollisionChecker::checkCollision(model1, model2) with the bundled PQP back end returns true whenever some point of the one surface mesh, at its global pose, coincides with a point of the other; if no face is degenerate (corners on a line) it returns true only then. A query for all contacts reports every touching pair of triangles and, for non-degenerate triangles, exactly the touching pairs, each exactly once; a query for the first contact reports the first of these or nothing. Building the bounding volume tree and querying never leave an array, whatever the triangles are.", "quantifier": "all meshes with valid face indices (any number of faces, degenerate or not, duplicate faces included), all pairs of rigid poses, all results of the (unverified) iterative eigenvector computation that orients the bounding volumes, real arithmetic", "why_tests_cant": "whether a pair of triangles is skipped depends on the bounding volumes of every ancestor in both trees and on the relative pose; a missed collision appears only for particular combinations of shape and pose, of which tests sample a handful", "anchors": ["VirtualRobot/CollisionDetection/PQP/CollisionCheckerPQP.cpp: checkCollision", "VirtualRobot/CollisionDetection/PQP/CollisionModelPQP.cpp: createPQPModel", "VirtualRobot/CollisionDetection/PQP/PQP++/PQP.cpp: project6, TriContact, CollideRecurse, PQP_Collide", "VirtualRobot/CollisionDetection/PQP/PQP++/Build.cpp: build_recurse, make_parent_relative, split_tris", "VirtualRobot/CollisionDetection/PQP/PQP++/BV.cpp: FitToTris, BV_Overlap", "VirtualRobot/CollisionDetection/PQP/PQP++/OBB_Disjoint.h: obb_disjoint"]}
{"id": "C46", "title": "Building a proximity query model follows a safe protocol", "statement": "After any sequence of BeginModel, AddTri and EndModel calls on a new PQP_Model, the model holds exactly the triangles added since it was last begun, queries are accepted exactly if EndModel was called with at least one triangle since then, the tree is the one for these triangles, triangle storage is never overrun, and calls out of sequence change nothing. Memory is freed twice exactly if a finished model is begun again and then begun once more or destroyed before it has been finished again.", "quantifier": "all finite sequences of calls with arbitrary size hints (negative ones included) and arbitrary triangles", "why_tests_cant": "the result depends on the whole history of calls; the double free needs a particular order of calls and need not be noticed when it happens", "anchors": ["VirtualRobot/CollisionDetection/PQP/PQP++/PQP.cpp: PQP_Model::PQP_Model, ~PQP_Model, BeginModel, AddTri, EndModel, PQP_Collide"]}
{"id": "C47", "title": "Mesh distance queries are exact and independent of earlier queries", "statement": "Every call of CollisionChecker::calculateDistance(model1, model2, P1, P2, id1, id2) with the bundled PQP back end, in any sequence of such calls, returns the smallest Euclidean distance between a point of the one surface mesh and a point of the other at their global poses. P1 and P2 are points of the two surfaces in global coordinates, and if the distance is positive they are exactly this far apart. Which triangles were closest in earlier queries (the query starts from them) makes no difference, nor does it matter that both collision models share one mesh. A query with error bounds rel and abs returns at least the distance, at most abs more and at most the factor 1+rel more. No face may be tiny: the square of twice its area must be more than 10^-15, or 0.", "quantifier": "all meshes with valid face indices, at least one face and no tiny one (faces with corners on a line and duplicate faces included), all sequences of queries, all pairs of rigid poses, all bounding volume orientations, all error bounds, real arithmetic", "why_tests_cant": "the bound that prunes a pair of subtrees depends on the best pair so far, on all ancestors and on the history of queries; the closest points fall into any of nine pairs of edges or two faces", "anchors": ["VirtualRobot/CollisionDetection/PQP/CollisionCheckerPQP.cpp: getMinDistance, GetPQPDistance, calculateDistance", "VirtualRobot/CollisionDetection/PQP/PQP++/PQP.cpp: TriDistance, DistanceRecurse, PQP_Distance", "VirtualRobot/CollisionDetection/PQP/PQP++/TriDist.cpp: SegPoints, TriDist", "VirtualRobot/CollisionDetection/PQP/PQP++/RectDist.h: ClipToRange, SegCoords, InVoronoi, RectDist", "VirtualRobot/CollisionDetection/PQP/PQP++/BV.cpp: BV_Distance"]}
{"id": "C48", "title": "Tolerance queries report closeness exactly", "statement": "A PQP_Tolerance query reports that two meshes are closer than the tolerance if and only if some points of their surfaces, at the given poses, are at most the tolerance apart (a negative tolerance counts as 0); it then reports a point of each surface in the coordinates of its own model, exactly the reported distance apart unless that is 0. CollisionChecker::checkCollision(model, point, tolerance) ignores the value of a tolerance other than 0 and always uses 50.", "quantifier": "all meshes with valid face indices, at least one face and no tiny one, all pairs of rigid poses, all tolerances, all bounding volume orientations, real arithmetic", "why_tests_cant": "the answer near the threshold depends on the exact distance and on every pruned pair of subtrees", "anchors": ["VirtualRobot/CollisionDetection/PQP/PQP++/PQP.cpp: ToleranceRecurse, PQP_Tolerance", "VirtualRobot/CollisionDetection/PQP/CollisionCheckerPQP.cpp: checkCollision(CollisionModelPtr, Vector3f, float)"]}
{"id": "C49", "title": "Closing a hand ends in a maximal grasp with exactly its contacts", "statement": "When EndEffector::closeActors(obstacles, stepSize) returns, no joint of any actor can do another step: the step would leave the joint limits or bring its actor into a collision with an obstacle, another actor or the static part of the hand (as far as the collision modes ask for checks). The hand got there by single joint steps, each within the limits and each ending without a collision of the actor that moved; joints of no actor are untouched. The returned contacts name exactly those pairs of a finger node and an obstacle that one more step of a joint of the same actor would make collide, each pair once, with distance, points and approach direction measured with the hand as it is left. openActors does the same with opposite steps.", "quantifier": "all hands (any number of actors, joints, static parts) in which no actor lists a joint twice, all collision checker answers as a function of the configuration, all obstacles, all start configurations within enforced limits, all step sizes", "why_tests_cant": "the order in which fingers are blocked and freed again depends on the whole sequence of collision answers", "anchors": ["VirtualRobot/EndEffector/EndEffector.cpp: closeActors, openActors", "VirtualRobot/EndEffector/EndEffectorActor.cpp: moveActor, moveActorCheckCollision, isColliding"]}
{"id": "C50", "title": "Closing a hand returns", "statement": "EndEffector::closeActors returns whenever every actor definition moves its joint (step size and speed not 0) and definitions of the same joint in several actors have the same direction, whatever the collision checker answers. With a joint of speed 0, or with two actors moving a joint in opposite directions, it can run forever.", "quantifier": "all hands, obstacles, start configurations and collision checker answers; all numbers of passes of the loop", "why_tests_cant": "termination for every pattern of collision answers", "anchors": ["VirtualRobot/EndEffector/EndEffector.cpp: closeActors, openActors", "VirtualRobot/EndEffector/EndEffectorActor.cpp: moveActor, moveActorCheckCollision, isColliding"]}
{"id": "C51", "title": "Closing a hand never drives it into a collision", "statement": "If a hand with independent fingers (the pose of a finger node depends on the joints of its own actor only) touches no obstacle, not its static part and no two fingers touch that both ask for checks against actors, then the same holds after EndEffector::closeActors and after every single joint step on the way.", "quantifier": "all hands with independent fingers and a symmetric collision checker, all obstacles, start configurations and step sizes", "why_tests_cant": "each actor is only checked when it moves itself; that the others stay free needs the argument for all sequences of moves", "anchors": ["VirtualRobot/EndEffector/EndEffector.cpp: closeActors, openActors", "VirtualRobot/EndEffector/EndEffectorActor.cpp: moveActor, moveActorCheckCollision, isColliding"]}
{"id": "C52", "title": "The Jacobian of a kinematic chain is the derivative of its forward kinematics", "statement": "Column i of the matrix DifferentialIK::getJacobianMatrix(tcp, mode) returns consists of the velocity of the tcp's position and the angular velocity of its orientation, seen from the chosen coordinate system (or globally), when joint i of the node set is moved with setJointValue: the true derivative of the poses the robot reports, for revolute, prismatic and fixed nodes, and zero for joints the tcp does not hang on. The mode selects the x, y, z and the three rotational rows in this order; the tcp may be a node or an object attached to one; with several goals the matrices are stacked in the order of the goals; a tcp not attached to the robot gets a zero matrix of the same size. With convertMMtoM the rows for positions are in metres. Joints that propagate their value to others are not covered: their column ignores the propagated joints.", "quantifier": "all robots (trees of revolute, prismatic and fixed nodes with any local transformations, axes and offsets), node sets, modes, coordinate systems, tcps, and all configurations strictly inside the joint limits", "why_tests_cant": "tests compare with finite differences at a few configurations of one robot", "anchors": ["VirtualRobot/IK/DifferentialIK.cpp: updateJacobianMatrix, setGoal", "VirtualRobot/Nodes/RobotNodeRevolute.cpp: updateTransformationMatrices, getJointRotationAxis", "VirtualRobot/Nodes/RobotNodePrismatic.cpp: updateTransformationMatrices, getJointTranslationDirection", "VirtualRobot/Nodes/RobotNode.cpp: getAllParents"]}
{"id": "C53", "title": "The centre-of-mass Jacobian is the derivative of the centre of mass", "statement": "RobotNodeSet::getCoM returns the mass-weighted mean of the global centres of mass of its bodies, and (without a coordinate system) column i of CoMIK::getJacobianMatrix is the velocity of that point when joint i of the joint set is moved with setJointValue, restricted to x and y for a planar goal: the true derivative, whatever the bodies' masses (also all zero), positions in the tree and local centres, including bodies that are joints themselves. With a coordinate system the matrix is wrong: axes are taken in that system and lever arms globally.", "quantifier": "all robots (trees of revolute, prismatic and fixed nodes), non-negative masses, local centres of mass, joint sets, non-empty body sets, goals of any dimension, and configurations strictly inside the joint limits", "why_tests_cant": "tests compare with finite differences at a few configurations of one robot", "anchors": ["VirtualRobot/IK/CoMIK.cpp: CoMIK, getJacobianOfCoM, getJacobianMatrix", "VirtualRobot/RobotNodeSet.cpp: getCoM, getMass", "VirtualRobot/SceneObject.cpp: getCoMGlobal"]}
{"id": "C54", "title": "Inverse Jacobians give least-error, least-effort motions and stay bounded at singularities", "statement": "For every matrix, MathTools::getPseudoInverse(A, tol) gives for each error a motion whose remaining error no other motion y beats by more than tol times the length of y, and that is never longer than 1/tol times the error; if no positive singular value is at or below tol it is exactly the shortest motion with the least error. getPseudoInverseDamped gives the unique minimiser of squared error plus lambda squared times squared length. JacobiProvider's inverse does the same with its joint weights (weighted length) and row scaling (scaled error) for the SVD method, with the row scaling only for the damped method; for the transpose method with linearly independent rows it removes the error exactly at the least weighted effort. It throws exactly when the SVD method meets a weight that is not positive.", "quantifier": "all real matrices of all sizes (including rank-deficient ones), all errors, tolerances, damping factors, weights and scalings, and every thin singular value decomposition Eigen may return", "why_tests_cant": "optimality is a statement about all other motions and all matrices; near-singular matrices are where samples miss", "anchors": ["VirtualRobot/MathTools.cpp: getPseudoInverse, getPseudoInverseD, getPseudoInverseDamped, getPseudoInverseDampedD", "VirtualRobot/IK/JacobiProvider.cpp: updatePseudoInverseJacobianMatrix, updatePseudoInverseJacobianMatrixInternal, updatePseudoInverseJacobianMatrixD, updatePseudoInverseJacobianMatrixDInternal"]}
{"id": "C55", "title": "Hierarchical IK steps respect task priorities", "statement": "With the default method (SVD), appending a task to the list given to HierarchicalIK::computeStep changes what the step does for every task before it by at most 1e-5 times the change of the step, and by nothing at all if the stacked Jacobians of the tasks before have no positive singular value at or below 1e-5; and the new task gets the best of what is left: no motion that treats all tasks before alike beats its remaining error by more than 1e-5 times the difference. The first task alone gets its least-error motion. computeStep throws exactly for uninitialised tasks, errors that do not fit, and non-positive weights. With the transpose or damped method lower tasks do disturb higher ones. StackedIK::computeStep minimises the total squared error of all tasks together.", "quantifier": "all lists of tasks (Jacobians of any number of rows, any errors), step sizes, providers, and every thin SVD", "why_tests_cant": "priorities must hold for all combinations of tasks, in particular conflicting and nearly singular ones", "anchors": ["VirtualRobot/IK/HierarchicalIK.cpp: computeStep", "VirtualRobot/IK/StackedIK.cpp: computeStep"]}
{"id": "C56", "title": "Differential IK reports success only when all goals are met, and its runs are step sequences with the last step taken back", "statement": "When DifferentialIK::computeSteps / solveIK returns true, every goal is met in the state the robot is left in: the distance in the selected coordinates and the angle between the orientations are within the goal's tolerances. A run is a sequence of at most maxNStep steps that stops at the first state (after the start) meeting all goals; when it returns false the robot is exactly in the last accepted state, a rejected last step having been taken back also for joints at their limits, and there was a reason to give up: no steps left, an invalid step, a step shorter than minChange, or a mean position error that would grow. With checkImprovements the mean error never grows from one accepted step to the next. Only joints of the node set change. setGoal keeps one goal per tcp, the last one.", "quantifier": "all robots, node sets, goals, step rules (hence all Jacobians and inverses), step limits and starting configurations", "why_tests_cant": "quantifies over all kinematics, goal combinations and the path the iteration takes", "anchors": ["VirtualRobot/IK/DifferentialIK.cpp: computeSteps, solveIK, checkTolerances, getErrorPosition, getErrorRotation, getMeanErrorPosition, setGoal"]}
{"id": "C57", "title": "One differential IK step goes for a part of the error with the chosen inverse", "statement": "DifferentialIK::computeStep gives the change of joint values whose motion, to first order, is the error vector: for each tcp and selected coordinate the step size times the distance to the target, shortened to at most positionMaxStep without changing its direction, and the step size times the rotation vector that takes the orientation to the target. With the transpose method and independent rows the linearised motion is exactly that, with the SVD method the best possible up to the tolerance. The coordinate system of the constructor is used for the Jacobian only, so with a rotated one steps can go away from the target.", "quantifier": "all robots, node sets, goals, states and step sizes", "why_tests_cant": "must hold for all configurations and all combinations of selections; samples miss the singular ones", "anchors": ["VirtualRobot/IK/DifferentialIK.cpp: updateError, updateDelta, computeStep", "VirtualRobot/IK/JacobiProvider.cpp: computePseudoInverseJacobianMatrix"]}
{"id": "C58", "title": "The generic IK solver: success is real, attempts are bounded, and what is left behind after failure", "statement": "When GenericIKSolver::solve returns true, the goal for its tcp with its tolerances and the goals of other tcps are met and there is no collision. Unreachable poses are rejected without moving. Otherwise it makes an attempt from the current joint values and then attempts from random configurations within the limits (translational joint at its initial value), at most maxLoops in all; when all fail the joints are left at the first end of a random attempt with the least mean position error if that is below the error at the start, and otherwise at the end of the first attempt. Only joints of the set change; the search always ends. An earlier goal for the tcp is replaced.", "quantifier": "all robots, node sets, goals, random numbers, collision predicates, step rules and starting configurations", "why_tests_cant": "depends on all sequences of random numbers and attempts", "anchors": ["VirtualRobot/IK/GenericIKSolver.cpp: solve, trySolve, setJointsRandom, _sampleSolution", "VirtualRobot/IK/AdvancedIKSolver.cpp: checkReachable"]}
{"id": "C59", "title": "Grasp selection: a reported grasp is reachable, and failure leaves the robot as it was", "statement": "AdvancedIKSolver::solveNoRNSUpdate leaves the robot exactly as it was and returns nothing or joint values that meet the goals without collision when set. solve(object, grasp) and sampleSolution meet the goals or restore the robot exactly. solve(object) always ends; it reports a grasp only if that can be reached, and reports none only after every grasp was tried from the original configuration without success, with the robot exactly as it was. The grasp it reports is a copy with the data of a grasp of the object's set, not one of the set's own.", "quantifier": "all robots, node sets, grasp sets, choices of rand(), random numbers, reachability tests and starting configurations within limits", "why_tests_cant": "quantifies over all grasp sets and all sequences of random choices", "anchors": ["VirtualRobot/IK/AdvancedIKSolver.cpp: solveNoRNSUpdate, solve, sampleSolution", "VirtualRobot/Grasping/GraspSet.cpp: clone, removeGrasp"]}
{"id": "C60", "title": "Every pose within the bounds of a workspace representation has exactly one voxel, the one that contains it", "statement": "WorkspaceRepresentation::initialize throws exactly for non-positive steps, empty bounds or bad nodes, and otherwise divides every dimension into equal voxels no larger than the requested step. getVoxelFromPose assigns to each pose within the bounds the one voxel that contains it, accepts outside the bounds exactly the poses less than one and a half voxels below and half a voxel above (and gives them the voxel at the border), and never gives an index outside the grid. getVoxelFromPosition agrees with it for the positions it accepts. The pose computed for a voxel is its centre and leads back to it; the float[6] overload of getPoseFromVoxel leads back to the voxel whenever every extent exceeds its step.", "quantifier": "all bounds, step sizes and poses", "why_tests_cant": "all real bounds, steps and coordinates, including those at voxel borders", "anchors": ["VirtualRobot/Workspace/WorkspaceRepresentation.cpp: initialize, getVoxelFromPose, getVoxelFromPosition, getPoseFromVoxel, getVoxelSize"]}
{"id": "C61", "title": "The entries of a workspace representation are those of a plain map after any history of recording calls", "statement": "After any history of addPose, setCurrentTCPPoseEntryIfLower, setEntry, setEntryCheckNeighbors, setVoxelEntry, binarize, fillHoles, clear and switching to a clone, every entry read by voxel or pose is that of a plain map from voxels to numbers; poses without a voxel read as zero. The number of build-up loops is the number of recording calls since the last clear, the achieved bounds are the extreme coordinates of the poses recorded since then. A recorded pose stays covered until zeros are written or the data is cleared, and nothing is covered that was not recorded. Entries set with IfLower only are the largest value given; up to 255 recordings per voxel the entry is the number of poses recorded in it.", "quantifier": "all grids that fit the index arithmetic, all histories of valid calls of any length", "why_tests_cant": "quantifies over histories of unbounded length and all poses", "anchors": ["VirtualRobot/Workspace/WorkspaceRepresentation.cpp: addPose, setCurrentTCPPoseEntryIfLower, setEntry, setEntryCheckNeighbors, setVoxelEntry, binarize, clear, clone, getEntry, isCovered", "VirtualRobot/Workspace/WorkspaceDataArray.cpp"]}
{"id": "C62", "title": "The queries of a recorded workspace are the sums, maxima, counts and samples of the recorded entries", "statement": "After any history the sum over orientations of a position is the sum of its entries (zero outside the grid) and the average is that divided by the number of orientations; getMaxEntry of a position is the largest entry over the orientations, getMaxSummedAngleReachablity the largest sum; computeVolumeInformation counts the reachable positions and those of them at the border of the grid or next to an unreachable one exactly. fillHoles replaces exactly the covered inner voxels with enough covered neighbours by their average and returns their number; it never fills a hole. sampleCoveredPose returns only covered poses and fails exactly if no covered voxel was drawn.", "quantifier": "all grids, histories, positions and random draws", "why_tests_cant": "must hold for the result of every history and every grid", "anchors": ["VirtualRobot/Workspace/WorkspaceRepresentation.cpp: sumAngleReachabilities, avgAngleReachabilities, getMaxEntry, getMaxSummedAngleReachablity, computeVolumeInformation, fillHoles, getVoxelEntry, sampleCoveredPose"]}
{"id": "C63", "title": "Extents and cuts of a workspace describe the recorded entries", "statement": "getWorkspaceExtends is the smallest axis-aligned box in the global frame that contains all positions within the bounds, whatever the pose of the base node. toLocal and toGlobal are inverse to each other. createCut throws exactly for non-positive cell sizes (and fractions outside [0,1]); its cells are squares side by side from the lower corner of the extents, cover them up to less than one cell, and each entry is the one of the pose in the middle of its cell or the sum over the orientations there. createCutTransformations lists exactly the cells with a positive entry; their poses are the ones evaluated exactly if the extents are multiples of the cell size.", "quantifier": "all bounds, base poses, reference poses and cell sizes", "why_tests_cant": "all real bounds, rotations of the base and cell sizes", "anchors": ["VirtualRobot/Workspace/WorkspaceRepresentation.cpp: getWorkspaceExtends, createCut, createCutTransformations, toLocal, toGlobal, toGlobalVec"]}
{"id": "C64", "title": "A saved workspace representation is loaded back, and when it is not", "statement": "A representation that was saved (file versions 2.5 to 2.9) is loaded with the same names, numbers, bounds, counters and with every voxel entry, for every grid of less than 2^31 voxels and every content, unless a multiple of 5000 falls into the last bytes of the compressed data; if it falls strictly into them, loading that file never succeeds. A missing base node comes back as the TCP, the minimal valid entry and the overflow flag are not saved. Files of the versions 1.1 to 2.4 are read in their formats. A representation loaded from versions 1.3 to 2.4 and saved again cannot be read (undefined behaviour), nor can a grid of 2^31 or more voxels. A file cut within the compressed data is loaded without an exception: a prefix of the blocks has its entries, the rest is zero. Files of an unknown type or version, of a robot of another type, or with a node set, TCP or number of joints the robot does not have are refused with an exception.", "quantifier": "all representations, grid sizes, voxel contents, file lengths and cut points", "why_tests_cant": "the failures depend on the compressed length modulo 5000 and on grid sizes no test has", "anchors": ["VirtualRobot/Workspace/WorkspaceRepresentation.cpp: load, save", "VirtualRobot/Workspace/WorkspaceDataArray.cpp: save, setDataRot", "VirtualRobot/XML/FileIO.h", "VirtualRobot/Compression/CompressionBZip2.cpp: BZ2_bzRead, BZ2_bzDecompress, BZ2_bzReadClose, read"]}
{"id": "C65", "title": "The count-value compression of old workspace files is inverted exactly, and fails exactly if the data is too cluttered", "statement": "Whenever compressData returns, uncompressData restores the data, and the compressed data is shorter. It returns exactly if twice the number of pairs needed (runs of equal bytes, cut at 255) is less than the size. Otherwise it throws for data of even size and writes past the end of its buffer for data of odd size.", "quantifier": "all byte arrays", "why_tests_cant": "all lengths and contents, in particular runs around 255 and odd sizes", "anchors": ["VirtualRobot/Workspace/WorkspaceRepresentation.cpp: compressData, uncompressData"]}
{"id": "C66", "title": "createConvexHull2D returns the convex hull as a counter clockwise polygon of its extreme points", "statement": "Of any list of points a part is kept in which any two are at least 1e-4 apart and that comes within 1e-4 of every point. If fewer than three are kept an exception is thrown. Otherwise the vertices returned are exactly the extreme points of the convex hull of the kept points, each is connected to the next and the last one to the first, all points are to the left of every segment, and no vertex occurs twice unless all points have the same x. No access is out of bounds.", "quantifier": "all finite lists of points in the plane, in any order, with collinear and equal points", "why_tests_cant": "collinear, vertical and nearly equal points in every number and order", "anchors": ["VirtualRobot/MathTools.cpp: createConvexHull2D, sortPoints", "VirtualRobot/MathTools.h: isLeft, ConvexHull2D"]}
{"id": "C67", "title": "isInside decides the convex hull, and the centre is inside", "statement": "For a hull returned by createConvexHull2D, isInside is true exactly for the points of the convex hull of the kept points, its border included. It is true only inside the hull of all points given, and every point of that hull is within 1e-4 in each coordinate of a point where it is true. getConvexHullCenter returns the centre of the bounding box of the hull, which is always inside the hull.", "quantifier": "all finite lists of points, all test points", "why_tests_cant": "infinitely many test points, in particular on the border and on lines through border segments", "anchors": ["VirtualRobot/MathTools.cpp: isInside, getConvexHullCenter"]}
{"id": "C68", "title": "Poses and roll, pitch, yaw convert into each other without loss", "statement": "posrpy2eigen4f makes a rigid pose of any six numbers: the position is the first three, the rotation is Rz(yaw) Ry(pitch) Rx(roll). eigen4f2rpy and back gives the same pose, exactly if the x axis of the pose is vertical or at least 1e-10 away from it, and with an error of at most 3e-10 per entry otherwise. Angles with roll and yaw in (-pi,pi] and pitch at least 1e-10 inside (-pi/2,pi/2) come back unchanged.", "quantifier": "all six numbers, all rigid poses", "why_tests_cant": "a continuum of poses with a singularity (gimbal lock) that samples miss", "anchors": ["VirtualRobot/MathTools.cpp: eigen4f2rpy, posrpy2eigen4f, rpy2eigen4f, rpy2eigen3f, eigen3f2rpy"]}
{"id": "C69", "title": "Quaternion operations are the algebra of quaternions and of rotations", "statement": "multiplyQuaternions, getConjugated, getInverse and getDot are product, conjugate, inverse (zero for zero) and scalar product of Hamilton's quaternions; getDelta(p,q) times p is q. The matrix of a unit quaternion is a rotation that maps v to q v q*, products belong to products, inverses to inverses and the delta to the rotation from one to the other.", "quantifier": "all quaternions; all unit quaternions", "why_tests_cant": "sign and order errors show only for general quaternions", "anchors": ["VirtualRobot/MathTools.cpp: multiplyQuaternions, getConjugated, getInverse, getDot, getDelta, quat2eigen4f"]}
{"id": "C70", "title": "Matrices, quaternions and axis with angle convert into each other without loss", "statement": "eigen4f2quat of a pose is a unit quaternion with the same rotation, posquat2eigen4f with the position gives the pose back, and a unit quaternion comes back up to its sign. axisangle2eigen4f and axisangle2quat for a unit axis are the rotation about the axis by the angle. eigen4f2axisangle gives a unit axis and an angle in [0,pi] that give the rotation back. getAngle of a unit quaternion is the angle of its rotation.", "quantifier": "all rigid poses, all unit quaternions, all unit axes and angles", "why_tests_cant": "four branches depending on the trace and the largest diagonal entry; half turns", "anchors": ["VirtualRobot/MathTools.cpp: eigen4f2quat, posquat2eigen4f, axisangle2eigen4f, axisangle2quat, eigen4f2axisangle, getAngle"]}
{"id": "C71", "title": "Hopf coordinates of rotations are in range and can be converted back", "statement": "hopf2quat gives a unit quaternion for any three numbers. quat2hopf of a unit quaternion has coordinates in [0,2pi), [0,2pi] and [0,pi/2], and converting back gives the same rotation: exactly, or with an error of at most 0.002 in each component where the share of x and y is within a millionth of one.", "quantifier": "all unit quaternions; all triples of numbers", "why_tests_cant": "branches of atan2 and wrap around", "anchors": ["VirtualRobot/MathTools.cpp: quat2hopf, hopf2quat"]}
{"id": "C72", "title": "getRotation turns one direction into another by the smallest angle", "statement": "For vectors other than zero, getRotation(from,to) is a unit quaternion whose rotation maps from to a positive multiple of to, its angle is the angle between both, directions orthogonal to both are kept unless both are parallel, and getRotation(to,from) is the inverse.", "quantifier": "all pairs of vectors other than zero", "why_tests_cant": "parallel and opposite vectors, all directions", "anchors": ["VirtualRobot/MathTools.cpp: getRotation"]}
{"id": "C73", "title": "Projection to a plane and its local coordinates", "statement": "projectPointToPlane gives the nearest point of the plane and getDistancePointPlane the signed distance to it. planePoint3D maps local coordinates to the plane, keeps distances, has the plane's point as origin and hits every point. projectPointToPlane2D is the inverse of it.", "quantifier": "all planes with unit normal, all points", "why_tests_cant": "all planes; the error shows only for planes away from the origin that are not horizontal", "anchors": ["VirtualRobot/MathTools.cpp: getDistancePointPlane, projectPointToPlane, planePoint3D, projectPointToPlane2D"]}
{"id": "C74", "title": "The mean of unit quaternions is a unit quaternion and respects equal rotations", "statement": "getMean of no quaternions is the identity. For unit quaternions it is a unit quaternion, namely their sum with a sign for each, divided by its length, which is at least the square root of their number. If all stand for one rotation, q or -q in any mixture, so does the mean.", "quantifier": "all lists of unit quaternions", "why_tests_cant": "lists of every length and every mixture of signs", "anchors": ["VirtualRobot/MathTools.cpp: getMean"]}
{"id": "C75", "title": "slerp interpolates between two rotations", "statement": "slerp throws exactly for a parameter outside [0,1]; for parameter 0 it gives the first quaternion, for 1 the second or its negative.", "quantifier": "all pairs of unit quaternions, all parameters", "why_tests_cant": "all pairs; nearly equal and opposite quaternions", "anchors": ["VirtualRobot/MathTools.cpp: slerp"]}
{"id": "C76", "title": "Angle arithmetic stays in range and keeps the angle", "statement": "MathTools::fmod(value, low, high) is in [low,high) and differs from value by a multiple of high-low. angleMod2PI, angleModPI and angleModX give the representative in [0,2pi), [-pi,pi) and [center-pi,center+pi). angleDelta(a,b) is in [-pi,pi) and takes a to b. angleLerp starts at the first angle, ends at the second and turns the shorter way. ShiftAngle0_2PI and Helpers::AngleModPI give a representative in [0,2pi] and [-pi,pi].", "quantifier": "all real numbers; all bounds low < high", "why_tests_cant": "all angles, any number of turns", "anchors": ["VirtualRobot/MathTools.h: fmod, angleMod2PI, angleModPI, angleModX, lerp, ILerp, angleLerp, angleDelta", "VirtualRobot/math/Helpers.cpp: ShiftAngle0_2PI, AngleModPI, Lerp"]}
{"id": "C77", "title": "Poses are built, inverted, moved and compared as rigid motions", "statement": "Pose(pos,ori) has this position and orientation, and every rigid pose is made of its parts. InvertedPose is the inverse on both sides. TransformPosition by a product is one transformation after the other, by the inverse goes back, keeps distances; TransformDirection is the transformation of differences. TranslatePose moves in world coordinates. getPoseDiff gives the distance of the positions and the angle in [0,pi] of the rotation between the orientations; it is symmetric and zero for equal poses only.", "quantifier": "all rigid poses, all points", "why_tests_cant": "a continuum of poses", "anchors": ["VirtualRobot/math/Helpers.h: Position, Orientation, Pose, InvertedPose", "VirtualRobot/math/Helpers.cpp: TranslatePose, InvertPose, TransformPosition, TransformDirection, TransformOrientation", "VirtualRobot/MathTools.cpp: transformPosition, getPoseDiff"]}
{"id": "C78", "title": "Frames, angles, areas and coordinates of vectors", "statement": "GetOrthonormalVectors makes a right-handed orthonormal frame whose first axis is the direction given. SmallestAngle and getAngle agree and are the angle between the vectors. Spherical coordinates convert to points and back, cylinder coordinates give the point at that height, radius and angle. getTriangleArea is half the length of the cross product, whatever the order of the corners. GetRotationVector has length at most pi and RotationVectorToOrientation of it takes the first orientation to the second; the rotation of a vector keeps it and turns the orthogonal directions by its length.", "quantifier": "all vectors (other than zero where a direction is needed), all rotations", "why_tests_cant": "a continuum of directions, branch at directions near the z axis", "anchors": ["VirtualRobot/math/Helpers.cpp: GetOrthonormalVectors, SmallestAngle, CartesianFromSphere, CartesianFromCylinder, GetAngleAxisFromTo, GetRotationVector, RotationVectorToOrientation", "VirtualRobot/MathTools.cpp: getAngle(v1,v2), toPosition, toSphericalCoords, getTriangleArea"]}
{"id": "C79", "title": "Lines, rays, segments and triangles", "statement": "Line::GetClosestPoint is the only nearest point of the line, GetT its parameter, GetDistanceToPoint the vector to the point. IntersectsTriangle reports t exactly if t > 0 and the point at t belongs to the triangle, IntersectsPrimitive the first such t over all triangles. Subdivide gives 3^depth triangles of equal area and orientation that cover exactly the given one. randomPointInTriangle reaches exactly the points of the triangle. nearestPointOnSegment is a point of the segment with the least distance.", "quantifier": "all lines with a direction, all triangles the ray is not parallel to, all depths, all points", "why_tests_cant": "a continuum of positions; every depth", "anchors": ["VirtualRobot/math/Line.cpp: GetClosestPoint, GetDistanceToPoint, GetT, FromPoints, Transform, IntersectsTriangle, IntersectsPrimitive", "VirtualRobot/math/Triangle.cpp: Normal, Flipped, Centroid, Subdivide, Transform", "VirtualRobot/MathTools.cpp: randomPointInTriangle", "VirtualRobot/MathTools.h: nearestPointOnSegment"]}
{"id": "C80", "title": "Planes: coordinates, nearest points, distances and intersections", "statement": "Plane::FromNormal is the plane through the point orthogonal to the normal; GetUVW gives the coordinates with which the point is rebuilt. ImplicitPlane: FromPositionNormal, Normalize, Flipped and ToImplicit keep the points; GetClosestPoint is the only nearest point, Get vanishes exactly on the plane and is the signed distance for a unit normal. ImplicitPlane::Intersect and intersectPlanes give a line of exactly the common points, intersectSegmentPlane the only common point, exactly if the ends are on different sides. GetSignedDistance is meant to be the signed distance.", "quantifier": "all planes with a normal, all points, all pairs of planes that are not parallel", "why_tests_cant": "a continuum of positions", "anchors": ["VirtualRobot/math/Plane.cpp: GetPoint, GetNormal, GetUVW, FromNormal, ToImplicit", "VirtualRobot/math/ImplicitPlane.cpp: Normalize, Flipped, GetClosestPoint, FromPositionNormal, GetSignedDistance, Intersect, Get", "VirtualRobot/MathTools.cpp: intersectSegmentPlane, intersectPlanes, onNormalPointingSide", "VirtualRobot/MathTools.h: nearestPointOnLine"]}
{"id": "C81", "title": "LimitVectorLength keeps the components within their limits", "statement": "Helpers::LimitVectorLength(vec, maxLen) throws exactly if maxLen has neither one row nor as many as vec; otherwise the result has the direction of vec, no component exceeds its limit, and a vector within the limits is unchanged.", "quantifier": "all vectors and limits", "why_tests_cant": "any length and any limits", "anchors": ["VirtualRobot/math/Helpers.cpp: LimitVectorLength"]}
{"id": "C82", "title": "Curves, line strips and sampling", "statement": "Bezier curves start at the first and end at the last control point, stay in the convex hull of the control points for t in [0,1], and GetDerivative is the derivative; LinearContinuedBezier is continued by straight lines with GetDerivative as derivative everywhere. LineStrip passes its k-th point at the k-th of equally spaced parameters, is straight in between and goes on along the end segments; fewer than two points give an exception. FindClosestPoint returns a sampled parameter with no sampled point nearer. GetLength is the length of the sampled polygon, at least the distance of the ends and exact on lines. MoveLengthOnCurve moves by the length given. Segments, Sample, FloatRange and VectorRange give the equally spaced values and all combinations. Average is the centre. CompositeFunctionR1R6 and TransformedFunctionR1R3 have the derivatives they report.", "quantifier": "all control points, all lists of points in every dimension, all parameters, all curves, all numbers of steps", "why_tests_cant": "a continuum of parameters; derivatives are limits; any number of points", "anchors": ["VirtualRobot/math/Bezier.cpp", "VirtualRobot/math/LinearContinuedBezier.cpp", "VirtualRobot/math/LineStrip.cpp: Get, GetIndex", "VirtualRobot/math/LineStripR1RM.h", "VirtualRobot/math/AbstractFunctionR1R3.cpp: FindClosestPoint, MoveLengthOnCurve, GetLength, Sample, Segments", "VirtualRobot/math/Helpers.cpp: FloatRange, VectorRange, Average", "VirtualRobot/math/CompositeFunctionR1R6.cpp", "VirtualRobot/math/TransformedFunctionR1R3.cpp"]}
{"id": "C83", "title": "Interpolated orientations turn from start to end at a constant rate", "statement": "LinearInterpolatedOrientation(start,end,startT,endT,clamp): Get(startT) is start and Get(endT) is the orientation end. In between (and without clamp everywhere) it turns at a constant rate about a fixed axis and GetDerivative is that rate times the axis. With clamp it rests before startT and after endT, with derivative zero.", "quantifier": "all pairs of unit quaternions, all startT < endT, all times, both values of clamp", "why_tests_cant": "a continuum of orientations and times", "anchors": ["VirtualRobot/math/LinearInterpolatedOrientation.cpp: LinearInterpolatedOrientation, Get, GetDerivative"]}
{"id": "C84", "title": "The value grid and its cache are transparent", "statement": "Array3D(size): whatever is written and read at indices in [0,size)³, nothing throws and every read gives the value last written there, or the default. GridCacheFloat3 gives, for any sequence of questions at indices in range, chosen adaptively, the same answers as the function it caches, and calls the function only for indices asked for and at most once for each.", "quantifier": "all sizes, all sequences of reads and writes, all adaptive programs that ask the cache", "why_tests_cant": "any sequence of accesses; answers decide what is asked next", "anchors": ["VirtualRobot/math/Array3D.h: Array3D, Get, Set", "VirtualRobot/math/GridCacheFloat3.cpp: GridCacheFloat3, Get"]}
{"id": "C85", "title": "Marching cubes: the triangles of a cell", "statement": "For every cell, the triangles use only vertices that were computed, there are at most five, and there are none exactly if all eight corners are on the same side of the level. Every corner of a triangle is on an edge of the cell whose ends are on different sides, where the linearly interpolated value is within 1e-5 of the level; every such edge carries a corner of a triangle.", "quantifier": "all values at the eight corners, all levels, all positions of the cell", "why_tests_cant": "256 cases times a continuum of values", "anchors": ["VirtualRobot/math/MarchingCubes.cpp: Polygonise, VertexInterp, GetVal, GetPos, _edgeTable, _triTable"]}
{"id": "C86", "title": "Marching cubes: the surface is closed", "statement": "Process covers the grid: every edge of the grid between points on different sides of the level carries a corner of a triangle and corners are nowhere else. If the boundary of the grid is all on one side, the mesh is closed and consistently oriented: every side of a triangle occurs as often in one direction as in the other. In general, unmatched sides are in the boundary of the grid.", "quantifier": "all grids of any size, all values, all levels", "why_tests_cant": "a mesh has a hole only for particular values in neighbouring cells", "anchors": ["VirtualRobot/math/MarchingCubes.cpp: Process, Build, Polygonise"]}
{"id": "C87", "title": "Marching cubes: the search for a surface", "statement": "ProcessSingleSurfaceOptimized from any cell ends; its triangles are those of a set of cells with surface, each once; with each the set contains all neighbouring cells with surface; if any cell of the grid has surface the result is not empty, and the start is included if it has surface. The result is closed where that of Process is. It is a single surface.", "quantifier": "all grids of any size, all values, all levels, all start cells", "why_tests_cant": "the search depends on the shape of all surfaces in the grid", "anchors": ["VirtualRobot/math/MarchingCubes.cpp: ProcessSingleSurfaceOptimized, AddAndMark, IsValidIndex"]}
{"id": "C88", "title": "Marching cubes over a model", "statement": "Calculate(center,start,steps,stepLength,model,isolevel) with the start inside the cube of half width steps·stepLength around the center never fails; every corner of its triangles is between two neighbouring sample points of the cube at which the model is on different sides, where the interpolated value is within 1e-5 of the level; the result is empty only if no two neighbouring sample points are on different sides; it is closed if the model is on one side on the boundary.", "quantifier": "all models, centers, starts, numbers of steps and step lengths", "why_tests_cant": "a continuum of models and starts", "anchors": ["VirtualRobot/math/MarchingCubes.cpp: Calculate", "VirtualRobot/math/Triangle.cpp: Transform"]}
{"id": "C89", "title": "bzip2: bits written are bits read", "statement": "Whatever numbers are written to the compressed stream (at most 24 bits at a time), the bytes are their bits in order, highest first, filled up with zeros. The reader gives the next bits, says that input is missing exactly if it is, and goes on where it stopped when more input arrives. All numbers written are read back.", "quantifier": "all sequences of fields of at most 24 bits, all inputs, all points where the input stops", "why_tests_cant": "any alignment of the fields to the bytes", "anchors": ["VirtualRobot/Compression/CompressionBZip2.cpp: bsW, bsNEEDW, bsFinishWrite, bsPutUInt32, GET_BITS"]}
{"id": "C90", "title": "bzip2: run-length coding", "statement": "Whatever bytes are added to a block and flushed, expanding the block gives them back; the block consists of bytes, the table of used bytes is exactly those that occur in it, and the checksum is that of the original bytes. A block that ends within a run is reported as corrupt, and nothing after it is read.", "quantifier": "all sequences of bytes", "why_tests_cant": "runs of any length at any place, in particular at 4 and 255 and at the end of the block", "anchors": ["VirtualRobot/Compression/CompressionBZip2.cpp: ADD_CHAR_TO_BLOCK, add_pair_to_block, flush_RL, unRLE_obuf_to_output_FAST"]}
{"id": "C91", "title": "bzip2: the block sorting transform is undone", "statement": "From the last column of the sorted rotations of a block and the place of the block among them, the decoder gives the bytes of the block in order. It never leaves the block, whatever the bytes are, and its links are a permutation.", "quantifier": "all blocks, also periodic ones, and all orders of equal rotations", "why_tests_cant": "depends on the order of all rotations", "anchors": ["VirtualRobot/Compression/CompressionBZip2.cpp: makeMaps_d, BZ_GET_FAST, BZ2_blockSort (result), BZ2_decompress (cftab, tt)"]}
{"id": "C92", "title": "bzip2: move to front and runs of zeros", "statement": "For every block of bytes that are marked as used, the values that are made from it are decoded to the block. They are in the alphabet, only the last one is the end mark, and there are at most as many as bytes, and the end mark, so that the array that they share with the sort is not overwritten too early.", "quantifier": "all blocks, all sets of used bytes", "why_tests_cant": "depends on the history of the list", "anchors": ["VirtualRobot/Compression/CompressionBZip2.cpp: generateMTFValues, makeMaps_e, BZ2_decompress (RUNA, RUNB, mtfa)"]}
{"id": "C93", "title": "bzip2: lengths of the codes", "statement": "For every alphabet of 2 to 258 symbols and all frequencies, the search for code lengths ends, after at most one more scaling than the frequencies have bits; the lengths are between 1 and 17 and the sum of 2^(-length) is exactly 1, so that a code with these lengths exists and none is wasted. If the frequencies add up to less than fib(d+3) no length is greater than d.", "quantifier": "all alphabets and frequencies", "why_tests_cant": "the depth of the tree depends on all frequencies", "anchors": ["VirtualRobot/Compression/CompressionBZip2.cpp: BZ2_hbMakeCodeLengths"]}
{"id": "C94", "title": "bzip2: codes", "statement": "For lengths as the compressor makes them: every code fits into its length, no code is the start of another, and the decoder reads the code of a symbol as that symbol and leaves what follows. For any lengths between 1 and 20 and any bits the decoder never leaves its tables, and what it gives is in the alphabet.", "quantifier": "all tables of lengths, all symbols, all following bits; all inputs for the last sentence", "why_tests_cant": "all tables that an untrusted file may contain", "anchors": ["VirtualRobot/Compression/CompressionBZip2.cpp: BZ2_hbAssignCodes, BZ2_hbCreateDecodeTables, GET_MTF_VAL"]}
{"id": "C95", "title": "bzip2: a block is read back", "statement": "For every block of at most 900000 bytes, its tables, selectors and codes are found without a failing assertion (two to six tables, 1 to 18002 selectors), every number written has at most 24 bits and fits, and from these bits, whatever follows, the decoder reads the checksum, the place of the block and the last column. The loops of the decoder end on every input.", "quantifier": "all blocks up to the maximal size", "why_tests_cant": "a wrong selector or table shows only for particular blocks", "anchors": ["VirtualRobot/Compression/CompressionBZip2.cpp: sendMTFValues, BZ2_compressBlock, BZ2_decompress"]}
{"id": "C96", "title": "bzip2: decompressing what was compressed gives the same bytes", "statement": "For every sequence of bytes of any length, every block size from 1 to 9, the compressor succeeds, and the decompressor gives the original bytes and stops at the end of the stream, whatever follows in the file.", "quantifier": "all inputs of any length, all block sizes, all sorting orders of equal rotations", "why_tests_cant": "composition of six coders over inputs of any length", "anchors": ["VirtualRobot/Compression/CompressionBZip2.cpp: BZ2_bzWrite, BZ2_bzWriteClose, BZ2_bzRead, BZ2_compress, handle_compress, copy_input_until_stop, BZ2_bzDecompress"]}
{"id": "C97", "title": "bzip2: no file makes the decompressor leave its arrays", "statement": "Whatever bytes a file consists of, the decompressor ends with data, an error or a demand for more input, and never accesses an element outside an array.", "quantifier": "all files", "why_tests_cant": "untrusted input", "anchors": ["VirtualRobot/Compression/CompressionBZip2.cpp: BZ2_decompress, BZ_GET_FAST, unRLE_obuf_to_output_FAST"]}
{"id": "C98", "title": "bzip2: checksums", "statement": "The table is that of CRC-32, entry by entry. Two inputs that differ only in up to four consecutive bytes have different checksums. If the decompressor accepts a file, the output consists of blocks whose checksums are those stored in the file, and the combination of them is the one at the end of the file.", "quantifier": "all inputs, all changes of up to 32 consecutive bits within four bytes, all files", "why_tests_cant": "all places and kinds of damage", "anchors": ["VirtualRobot/Compression/CompressionBZip2.cpp: BZ2_crc32Table, BZ_UPDATE_CRC, BZ_FINALISE_CRC, BZ2_bzDecompress"]}
{"id": "C99", "title": "Kernels and their derivatives", "statement": "For WilliamsPlusKernel and WilliamsMinusKernel, all points (also equal ones) and all R, Kernel_di and Kernel_dj are the partial derivatives of Kernel for the first and the second point, and Kernel_didj the mixed second derivatives. Kernel(…,i,j) gives a number exactly for indices 0 to 3 and is symmetric in points and indices together; GaussianKernel throws for all but 0, 0.", "quantifier": "all pairs of points, all R, all indices", "why_tests_cant": "a continuum of points; a sign error in one of nine components at one kind of points is easily missed", "anchors": ["VirtualRobot/math/Kernels.cpp: Kernel, Kernel_di, Kernel_dj, Kernel_didj, Kernel_dx, Kernel_ddx, Kernel_dxdy", "VirtualRobot/math/Kernels.h"]}
{"id": "C100", "title": "An implicit surface interpolates its samples", "statement": "GaussianImplicitSurface3D: Calculate never throws; if the covariance has an inverse, the prediction at every sample without noise is the sample's value and the variance there is zero; R is the largest distance of two samples; the order of the samples does not matter; two samples without noise at the same place make the covariance singular.", "quantifier": "all numbers of samples, positions, values and noises, all three kernels", "why_tests_cant": "a continuum of samples of any number", "anchors": ["VirtualRobot/math/GaussianImplicitSurface3D.cpp: Calculate, CalculateCovariance, MatrixInvert, MatrixMultiply, Predict, getCux, GetVariance"]}
{"id": "C101", "title": "An implicit surface with normals", "statement": "GaussianImplicitSurface3DNormals and GaussianImplicitSurface3DCombined: if the covariance has an inverse and there is no noise, the prediction is zero at the samples with normal, and its gradient there is the normal; at the other samples it is the value. The given noise applies to every sample.", "quantifier": "all numbers of samples of both kinds, positions, values and normals", "why_tests_cant": "a continuum of samples of any number", "anchors": ["VirtualRobot/math/GaussianImplicitSurface3DNormals.cpp: Calculate, CalculateCovariance, Predict, getCux", "VirtualRobot/math/GaussianImplicitSurface3DCombined.cpp: Calculate, CalculateCovariance, Predict, getCux"]}
{"id": "C102", "title": "Torques against gravity", "statement": "Gravity(robot, joints, bodies) throws exactly if there are no joints, a joint is not revolute or a body has no mass. Otherwise computeGravityTorque gives for each joint minus the torque of the weights of the bodies the joint moves, about its axis; this is the derivative of the potential energy of the bodies when the joint is moved with setJointValue. The map version gives the same values under the names of the joints and nothing else.", "quantifier": "all robots, sets of joints and bodies, masses and configurations", "why_tests_cant": "trees of any shape with bodies at any subset of the nodes", "anchors": ["VirtualRobot/Tools/Gravity.cpp: Gravity, computeGravityTorque, GravityData::init, GravityData::computeCoMAndTorque"]}
{"id": "C103", "title": "Constraints whose gradient is right", "statement": "For the position, orientation, centre-of-mass, reference-configuration and joint-limit-avoidance constraints, optimizationGradient is the gradient of optimizationFunction: its i-th entry is the rate at which the value changes when the i-th joint of the set is moved with setJointValue. The joint limit avoidance refers to the middle of the limits, and setReferenceConfiguration throws exactly if the size is wrong.", "quantifier": "all robots, node sets, targets, selections and configurations with the joints within their limits", "why_tests_cant": "a derivative at every configuration of every kinematic tree", "anchors": ["VirtualRobot/IK/constraints/PositionConstraint.cpp", "VirtualRobot/IK/constraints/OrientationConstraint.cpp", "VirtualRobot/IK/constraints/CoMConstraint.cpp", "VirtualRobot/IK/constraints/ReferenceConfigurationConstraint.cpp", "VirtualRobot/IK/constraints/JointLimitAvoidanceConstraint.cpp"]}
{"id": "C104", "title": "Gradients of the pose, balance and task-space-region constraints", "statement": "Also for the pose, balance and task-space-region constraints optimizationGradient is the gradient of optimizationFunction.", "quantifier": "all robots, node sets, targets, regions, support polygons and configurations", "why_tests_cant": "a derivative at every configuration of every kinematic tree", "anchors": ["VirtualRobot/IK/constraints/PoseConstraint.cpp", "VirtualRobot/IK/constraints/BalanceConstraint.cpp", "VirtualRobot/IK/constraints/TSRConstraint.cpp"]}
{"id": "C105", "title": "Values and tolerances of constraints", "statement": "The value of a constraint is the squared error in the selected coordinates and checkTolerances is true exactly if that error is within the tolerance; selections which are not named make checkTolerances throw. The pose constraint agrees with DifferentialIK::checkTolerances. The value of a region's position is zero exactly if the pose is in the region. The balance value is between 0 and 1, at least one half if the centre of mass is not inside the support polygon, and does not grow when the centre of mass moves away from every edge.", "quantifier": "all constraints, targets, selections, tolerances and states of the robot", "why_tests_cant": "every state and every tolerance", "anchors": ["VirtualRobot/IK/constraints/PositionConstraint.cpp: checkTolerances", "VirtualRobot/IK/constraints/OrientationConstraint.cpp: checkTolerances", "VirtualRobot/IK/constraints/PoseConstraint.cpp: checkTolerances", "VirtualRobot/IK/constraints/CoMConstraint.cpp", "VirtualRobot/IK/constraints/TSRConstraint.cpp", "VirtualRobot/IK/constraints/BalanceConstraint.cpp"]}
{"id": "C106", "title": "Solving constraints by optimisation", "statement": "ConstrainedOptimizationIK::solve returns true exactly if in one of at most maxIterations attempts the optimiser finds a configuration in which all constraints that are not soft are within their tolerances; the robot is then in the first such configuration. Otherwise it returns false and the robot is in the configuration found with the least error. Joints outside the node set do not move and the update flags of the robot are restored. Attempts start within the joint limits: at the seeds, then at random. The objective is evaluated in the configuration the optimiser asks for, with its gradient. Stepwise calls and calls without initialize throw without effect.", "quantifier": "all robots, node sets, constraints, seeds, random numbers and all behaviours of the optimiser", "why_tests_cant": "every sequence of evaluations and every result of an external optimiser", "anchors": ["VirtualRobot/IK/ConstrainedOptimizationIK.cpp: initialize, solve, optimizationFunction, hardOptimizationFunction"]}
{"id": "C107", "title": "Solving constraints in steps", "statement": "ConstrainedIK keeps exactly the constraints added and not removed since, by decreasing priority. initialize fails exactly if several constraints ask for a pose of the robot. solve makes at most the remaining number of iterations and returns true exactly after the first step after which all hard constraints are within their tolerances; a failing step ends it. A stepwise call makes one step. A step of the hierarchical solver succeeds exactly if it does not stall and no hard constraint's error was raised, and then moves the joints by the computed step; otherwise the robot stays. A solver that is initialised again behaves like a new one.", "quantifier": "all histories of adding and removing, all step functions, iteration limits and states", "why_tests_cant": "every history and every number of iterations", "anchors": ["VirtualRobot/IK/ConstrainedIK.cpp: addConstraint, removeConstraint, initialize, solve", "VirtualRobot/IK/ConstrainedHierarchicalIK.cpp: initialize, solveStep", "VirtualRobot/IK/ConstrainedStackedIK.cpp: solveStep", "VirtualRobot/IK/Constraint.cpp: initialize, getErrorDifference"]}
{"id": "C108", "title": "Contacts of a grasp", "statement": "setContactPoints hands every contact of the list to the measure, once and in order: the point on the object relative to the centre of the object, the normal pointing into the object, and force 1; the same in metres. The basic measure is the share of five contacts that are there, at most 1, and is valid exactly if there are at least two contacts. The other overload does the same for contact points. The size of the object is the longest side of its bounding box.", "quantifier": "all lists of contacts, all centres", "why_tests_cant": "every list of contacts", "anchors": ["GraspPlanning/GraspQuality/BasicGraspQualityMeasure.cpp: setContactPoints, convertMM2M, calculateGraspQuality, isValid"]}
{"id": "C109", "title": "Friction cones", "statement": "The generator turns every contact into the requested number of points with unit normals, evenly spread on a circle around the normal; all of them lie in the friction cone of the contact, and the cone of the coefficient of friction is covered.", "quantifier": "all contacts with a normal, all numbers of samples, all coefficients and forces", "why_tests_cant": "every direction of the normal and every coefficient", "anchors": ["GraspPlanning/ContactConeGenerator.cpp: ContactConeGenerator, computeConePoints, computeConePoint, getConeAngle"]}
{"id": "C110", "title": "Force closure", "statement": "isGraspForceClosure answers whether the origin of the wrench space lies in the convex hull of the wrenches the contacts can apply: force and torque around the centre of the object, the torque scaled by the size of the object.", "quantifier": "all contacts, all objects, all sets of wrenches whose hull qhull reports exactly", "why_tests_cant": "every set of wrenches", "anchors": ["GraspPlanning/GraspQuality/GraspQualityMeasureWrenchSpace.cpp: createWrenchPoints, calculateGWS, isOriginInGWSHull, isGraspForceClosure", "GraspPlanning/ConvexHullGenerator.cpp: CreateConvexHull (6D)"]}
{"id": "C111", "title": "Quality of a grasp", "statement": "The quality is the radius of the largest ball in the hull of the wrenches over the radius for the object, 0 without a hull; and so is the measure that is not normalised without the division. The volume measure is the volume of the hull over the one of the object.", "quantifier": "all hulls with unit normals, all reference values", "why_tests_cant": "every hull", "anchors": ["GraspPlanning/GraspQuality/GraspQualityMeasureWrenchSpace.cpp: minOffset, calculateGraspQuality", "GraspPlanning/GraspQuality/GraspQualityMeasureWrenchSpaceNotNormalized.cpp: minOffset, calculateGraspQuality", "GraspPlanning/ConvexHullGenerator.cpp: CreateConvexHull (6D)"]}
{"id": "C112", "title": "A quality measure in use", "statement": "After every history of calls the answers of a measure of the wrench space are those of a new measure given the contacts that were set last; asking twice gives the same answer.", "quantifier": "all histories of setting contacts and asking, in every order", "why_tests_cant": "every history", "anchors": ["GraspPlanning/GraspQuality/GraspQualityMeasureWrenchSpace.cpp: setContactPoints, getGraspQuality, isGraspForceClosure, getVolumeGraspMeasure, calculateOWS, preCalculatedOWS"]}
{"id": "C113", "title": "Samples of the surface of an object", "statement": "The samples for the object wrench space come from different faces of the mesh, as many as requested or all of them; each is the centre of its face relative to the centre of mass, with the scaled normal of the face. The first question for the quality computes the reference values of the object from 300 samples, once: the radius of the largest ball in the hull of their wrenches, and its volume.", "quantifier": "all meshes, all numbers of samples, all random numbers", "why_tests_cant": "every sequence of random numbers", "anchors": ["GraspPlanning/GraspQuality/GraspQualityMeasure.cpp: sampleObjectPoints"]}
{"id": "C114", "title": "Approach movements", "statement": "An approach movement starts from a point of the surface of the object, any point of it can come out, and faces are chosen by area if the constructor was asked to; its direction is the normal there. The hand is placed with its approach axis against the direction and is moved back in whole steps, as few as are needed, until it does not touch the object; a random distance is only added if the hand does not touch the object there.", "quantifier": "all meshes, faces, hands, preshapes and random numbers", "why_tests_cant": "every mesh, pose and sequence of random numbers", "anchors": ["GraspPlanning/ApproachMovementGenerator.cpp: ApproachMovementGenerator, setEEFPose, updateEEFPose, setEEFToRandomApproachPose", "GraspPlanning/ApproachMovementSurfaceNormal.cpp: getPositionOnObject, createNewApproachPose, setEEFToApproachPose, moveEEFAway, getEEFPose"]}
{"id": "C115", "title": "The grasp planner", "statement": "plan(n, t) adds at most n grasps, all with collision free hands, at least two contacts and the demanded quality, and fewer only if the time is up; a time-out of 0 means no time-out. The grasps have different names, the number returned is the number that was added, and the evaluation counts every attempt once under its outcome. The retreat for small objects ends clear of the object.", "quantifier": "all histories of calls, all turns of the generator, all clocks, all worlds", "why_tests_cant": "every history and every sequence of poses", "anchors": ["GraspPlanning/GraspPlanner/GenericGraspPlanner.cpp: plan, planGrasp, moveEEFAway, timeout, setParameters, setRetreatOnLowContacts, clearEvaluation", "GraspPlanning/GraspPlanner/GraspPlannerEvaluation.h", "GraspPlanning/GraspPlanner/GraspPlannerEvaluation.cpp: GraspPlannerEvaluation, operator<<"]}
{"id": "C116", "title": "Disturbed poses", "statement": "generatePoses gives one pose for every combination of steps in the enabled dimensions around the grasp centre, or the requested number of random poses that differ from it by not more than configured; without a disturbance the pose is that of the object.", "quantifier": "all configurations, poses and random numbers", "why_tests_cant": "every configuration", "anchors": ["GraspPlanning/GraspQuality/GraspEvaluationPoseUncertainty.cpp: generatePoses (4 overloads), getMean", "GraspPlanning/GraspQuality/GraspEvaluationPoseUncertainty.h: PoseUncertaintyConfig"]}
{"id": "C117", "title": "Grasps under uncertainty of the pose", "statement": "evaluatePoses and evaluateGrasp count every pose once, as in collision or as valid, and report rates and averages over the valid and over all poses; the result of a pose does not depend on the other poses; afterwards hand, fingers and object are as before.", "quantifier": "all lists of poses, all hands, all measures", "why_tests_cant": "every list and order of poses", "anchors": ["GraspPlanning/GraspQuality/GraspEvaluationPoseUncertainty.cpp: evaluatePose, evaluatePoses, evaluateGrasp"]}
{"id": "C118", "title": "The grid of robot positions", "statement": "A workspace grid divides the given area into cells not larger than the given size. After any history of setEntry, setCellEntry, setEntryCheckNeighbors, setEntries, reset and setGridPosition every cell has the largest value that was set there since the last reset and, once each, the grasps that were set with a value of at least 100 or not smaller than the ones before; getEntry, getCellEntry and getMaxEntry say so, positions outside of the grid have no entry, the neighbours of a cell get its value if theirs is lower, and no access leaves the memory of the grid.", "quantifier": "all areas, sizes, histories, positions and grasps", "why_tests_cant": "every history and every position", "anchors": ["VirtualRobot/Workspace/WorkspaceGrid.cpp: WorkspaceGrid, reset, getEntry, getCellEntry, setEntry, setCellEntry, setEntryCheckNeighbors, setEntries, getMaxEntry, setGridPosition", "VirtualRobot/Workspace/WorkspaceGrid.h"]}
{"id": "C119", "title": "Random positions of the grid", "statement": "getRandomPos returns a position whose entry is at least the given one, with this entry and a grasp (or all the grasps) of its cell; it fails only if all drawn cells have smaller entries.", "quantifier": "all grids, histories, random numbers and numbers of attempts", "why_tests_cant": "every grid and sequence of random numbers", "anchors": ["VirtualRobot/Workspace/WorkspaceGrid.cpp: getRandomPos (2 overloads)"]}
{"id": "C120", "title": "Merging grids", "statement": "MergeWorkspaceGrids returns a grid over the area of all the grids in which every cell has the worst of the entries of the grids and a grasp for it.", "quantifier": "all lists of grids, all histories, all random numbers", "why_tests_cant": "every list of grids", "anchors": ["VirtualRobot/Workspace/WorkspaceGrid.cpp: MergeWorkspaceGrids"]}
{"id": "C121", "title": "Bounding boxes", "statement": "A bounding box made of points is the smallest axis-aligned box around them, in whatever order and portions they are added; its corner points, another box added to it and a transformation of it are again boxes around the right points; isInside, planeGoesThrough and scale answer for the box.", "quantifier": "all sequences of points, boxes, matrices and planes", "why_tests_cant": "every sequence of points", "anchors": ["VirtualRobot/BoundingBox.cpp: BoundingBox, addPoint, addPoints, getPoints, transform, scale, isInside, planeGoesThrough"]}
{"id": "C122", "title": "Building triangle meshes", "statement": "Triangles and meshes that are added appear in the mesh with their corners, colours and normals, and nothing else changes; removing unused vertices keeps all triangles; after any history of calls all faces refer to existing vertices, so that no call of a member function throws or leaves the memory; the bounding box is the one of the vertices.", "quantifier": "all meshes, points, histories of calls", "why_tests_cant": "every history", "anchors": ["VirtualRobot/Visualization/TriMeshModel.cpp: addTriangleWithFace, addMesh, addVertex, addNormal, addColor, addFace, clear, setColor, removeUnusedVertices, CreateNormal"]}
{"id": "C123", "title": "Merging vertices", "statement": "mergeVertices moves every corner to a vertex within the given distance, gives corners at such vertices the same vertex, keeps everything else and removes vertices that are not used any more.", "quantifier": "all meshes and distances", "why_tests_cant": "every mesh", "anchors": ["VirtualRobot/Visualization/TriMeshModel.cpp: mergeVertices"]}
{"id": "C124", "title": "Normals, colours and moving the surface", "statement": "addMissingNormals and addMissingColors give every corner without one a normal of its face respectively the colour of a corner at the same vertex or the given one, and keep the others; flipVertexOrientations reverses all triangles; fattenShrink moves every vertex along its averaged normal.", "quantifier": "all meshes, colours and offsets", "why_tests_cant": "every mesh", "anchors": ["VirtualRobot/Visualization/TriMeshModel.cpp: addMissingNormals, addMissingColors, flipVertexOrientations, fattenShrink, smoothNormalSurface", "VirtualRobot/MathTools.h: TriangleFace"]}
{"id": "C125", "title": "Correcting the orientation of faces", "statement": "checkAndCorrectNormals keeps or flips every face so that neighbouring faces run through their common side in opposite directions; a mesh that is so already is not changed, and the number of flips is returned.", "quantifier": "all meshes", "why_tests_cant": "every mesh and order of faces", "anchors": ["VirtualRobot/Visualization/TriMeshModel.cpp: checkAndCorrectNormals, checkFacesHaveSameEdge"]}
{"id": "C126", "title": "Meshes of boxes and measures of meshes", "statement": "The mesh of a box has twelve triangles that cover exactly the surface of the box, close it and are counterclockwise from outside, in the given colours; a grid of boxes has such a box at every position. Size, centre, areas, scaled meshes and clones are those of the triangles.", "quantifier": "all poses, sizes, colours, positions and meshes", "why_tests_cant": "every pose, size and mesh", "anchors": ["VirtualRobot/Visualization/TriMeshUtils.cpp: CreateBoxTriangles, CreateBox, CreateSparseBoxGrid", "VirtualRobot/Visualization/TriMeshModel.cpp: getFaceAreas, getCOM, getSize, scale, clone"]}
{"id": "C127", "title": "Segments of a path", "statement": "A straight segment runs at unit speed from its start to its end. A rounded corner touches both sides of the corner in their directions, stays within the maximal deviation of them, and its tangent and curvature are the derivatives of its configuration and tangent. Its switching points are exactly the points at which a joint turns round.", "quantifier": "all dimensions, corners, deviations and positions on the segment", "why_tests_cant": "every corner and every position", "anchors": ["VirtualRobot/TimeOptimalTrajectory/Path.cpp: LinearPathSegment, CircularPathSegment"]}
{"id": "C128", "title": "Paths through waypoints", "statement": "A path starts at the first waypoint and ends at the last one, stays within the maximal deviation of the polyline through the waypoints, without rounding it is the polyline; configuration and direction continue from segment to segment. Its switching points are the ends of the segments and the points at which a joint turns round, in order, and getNextSwitchingPoint finds the next one.", "quantifier": "all lists of two or more waypoints, deviations and positions", "why_tests_cant": "every list of waypoints", "anchors": ["VirtualRobot/TimeOptimalTrajectory/Path.cpp: Path, getPathSegment, getConfig, getTangent, getCurvature, getNextSwitchingPoint, getSwitchingPoints"]}
{"id": "C129", "title": "Limits of the speed along a path", "statement": "A speed along the path is below getVelocityMaxPathVelocity exactly if no joint is faster than its maximal speed; an acceleration is between the two values of getMinMaxPathAcceleration exactly if no moving joint is accelerated more than allowed; a speed is below getAccelerationMaxPathVelocity exactly if some acceleration is admissible; getVelocityMaxPathVelocityDeriv is the derivative of the first limit.", "quantifier": "all dimensions, tangents, curvatures, limits, speeds and accelerations", "why_tests_cant": "every tangent, curvature and speed", "anchors": ["VirtualRobot/TimeOptimalTrajectory/TimeOptimalTrajectory.cpp: getVelocityMaxPathVelocity, getMinMaxPathAcceleration, getAccelerationMaxPathVelocity, getVelocityMaxPathVelocityDeriv"]}
{"id": "C130", "title": "Generating a time optimal trajectory", "statement": "If the constructor ends with a valid trajectory, it starts at rest at the beginning of the path and ends at rest at its end. The integration forward only makes steps with increasing positions at which no joint is faster than allowed and some acceleration is admissible. The integration backward keeps a beginning of the trajectory and continues it, from where the two meet, up to the given point, and stays inside its lists.", "quantifier": "all paths, limits, time steps, switching points and numbers of rounds", "why_tests_cant": "every path and every run", "anchors": ["VirtualRobot/TimeOptimalTrajectory/TimeOptimalTrajectory.cpp: TimeOptimalTrajectory, integrateForward, integrateBackward"]}
{"id": "C131", "title": "Reading a time optimal trajectory", "statement": "The results of getPosition and getVelocity do not depend on what was asked before. During the duration they follow one motion along the path: the position on the path is differentiable with the speed as derivative, the acceleration is constant between steps, and position and speed at the times of the steps are those of the steps.", "quantifier": "all lists of steps, histories of queries and times", "why_tests_cant": "every history and every time", "anchors": ["VirtualRobot/TimeOptimalTrajectory/TimeOptimalTrajectory.cpp: TimeOptimalTrajectory, getDuration, getTrajectorySegment, getPosition, getVelocity"]}
{"id": "C132", "title": "Units in robot definitions", "statement": "Exactly the documented texts are units, each of one dimension and size; conversions between units keep the quantity and change no value of another dimension. An attribute with a unit is found under its names in the documented order, in any case, and is refused if the unit has another dimension.", "quantifier": "all texts, numbers and XML elements", "why_tests_cant": "every text and every list of attributes", "anchors": ["VirtualRobot/Units.h", "VirtualRobot/Units.cpp", "VirtualRobot/XML/BaseIO.cpp: getUnitsAttribute, getUnitsAttributes, hasUnitsAttribute, processStringAttribute, processFloatAttribute"]}
{"id": "C133", "title": "Transformations in robot definitions", "statement": "A Transform element is the product of its parts in the order of the document: translations in millimeters whatever their unit, rotations by roll, pitch and yaw in the given unit, unit quaternions, Denavit-Hartenberg parameters, and matrices with missing rows from the identity. It is a rigid motion if its matrices and quaternions are; a matrix that is written is read back.", "quantifier": "all XML elements, numbers and units", "why_tests_cant": "every element and every number", "anchors": ["VirtualRobot/XML/BaseIO.cpp: processTransformNode, processDHNode, process4x4Matrix, process3x3Matrix, toXML", "VirtualRobot/XML/RobotIO.cpp: processRobotNode"]}
{"id": "C134", "title": "Limits of joints in robot definitions", "statement": "Limits are stored in radian or millimeters whatever their unit, limits without a unit are refused. The limits of a limitless joint span a full turn. A joint starts with its initial value, moved to the nearest limit. A missing limit gets its default.", "quantifier": "all elements, numbers and units", "why_tests_cant": "every combination of attributes", "anchors": ["VirtualRobot/XML/RobotIO.cpp: processLimitsNode, processJointNode"]}
{"id": "C135", "title": "Physical quantities in robot definitions", "statement": "Velocities, accelerations, torques, masses, centres of mass, inertia matrices and joint values of configurations are stored in the documented units, whatever the units of the file.", "quantifier": "all elements, numbers and units", "why_tests_cant": "every combination of units", "anchors": ["VirtualRobot/XML/RobotIO.cpp: processJointNode", "VirtualRobot/XML/BaseIO.cpp: processPhysicsTag, processConfigurationNode"]}
{"id": "C136", "title": "Lists and joints in robot definitions", "statement": "A list of numbers, of nodes or of joint values is read exactly if all its elements are of the right kind, and is in the order of the document. A joint is fixed, revolute or prismatic; it is accepted only with known elements and at most one of limits, axis and direction, and has what its elements say or the defaults.", "quantifier": "all elements", "why_tests_cant": "every list of children", "anchors": ["VirtualRobot/XML/RobotIO.cpp: processJointNode", "VirtualRobot/XML/BaseIO.cpp: processFloatValueTags, processNodeList, processConfigurationNode"]}
{"id": "C137", "title": "The structure of a robot read from a file", "statement": "A document is accepted exactly if the names of its nodes differ, its root is one of them, all children exist and every node but the root is a child of another one. The robot then has the structure of the document: one tree below its root, with the children of a node in the order of the document.", "quantifier": "all documents and orders of the addresses of nodes", "why_tests_cant": "every document and every allocation", "anchors": ["VirtualRobot/XML/RobotIO.cpp: processRobotChildNodes, processRobot", "VirtualRobot/RobotFactory.cpp: initializeRobot", "VirtualRobot/SceneObject.cpp: attachChild"]}
{"id": "C138", "title": "Names of loaded robots", "statement": "Robots that are loaded without a standard name get different names.", "quantifier": "all histories of loading and schedules of threads", "why_tests_cant": "every history and every schedule", "anchors": ["VirtualRobot/XML/RobotIO.cpp: processRobotAttributes"]}
{"id": "C139", "title": "Robots with another root", "statement": "The robot that starts at another node has the same nodes and the same connections, now pointing to the new root. For the same joint values every body and every joint frame is where it is in the original, up to one rigid motion of the whole robot, and no body or mass is lost. The same holds for the chain between two nodes, taken from its other end.", "quantifier": "all trees of nodes, new roots, joint values, motions of joints and base poses", "why_tests_cant": "every tree and every joint value", "anchors": ["VirtualRobot/RobotFactory.cpp: cloneInversed, cloneChangeStructure"]}
{"id": "C140", "title": "Copies of robots and of their parts", "statement": "A copy of a robot, or of the part that starts at a node, has the same nodes and connections, exactly the sets of nodes that lie in the part, and for the same joint values the same poses of nodes, shapes and centres of mass, seen from the frame where it starts. A scaled copy has them at the scaled places.", "quantifier": "all trees of nodes, starting nodes, scalings, joint values and base poses", "why_tests_cant": "every tree and every joint value", "anchors": ["VirtualRobot/Robot.cpp: extractSubPart", "VirtualRobot/RobotFactory.cpp: clone", "VirtualRobot/Nodes/RobotNode.cpp: clone", "VirtualRobot/RobotNodeSet.cpp: nodesSufficient"]}
{"id": "C141", "title": "Copies of chains of joints", "statement": "The robot made of a chain of joints, with everything else fixed to it, moves as the chain does in the original robot.", "quantifier": "all trees of nodes, chains, joint values and base poses", "why_tests_cant": "every chain and every joint value", "anchors": ["VirtualRobot/RobotFactory.cpp: cloneSubSet, accumulateTransformations"]}
{"id": "C142", "title": "Reading binary STL files", "statement": "Reading a binary STL file adds exactly the triangles of the file to the mesh, in their order, with their normals and their scaled corners, except those with two equal corners. Equal corners become one vertex. The result does not depend on the order of bytes of the host, on the header, or on bytes behind the last triangle.", "quantifier": "all headers, numbers and contents of triangles, scalings and meshes read into", "why_tests_cant": "every file", "anchors": ["VirtualRobot/Import/MeshImport/STLReader.cpp: readBinary, readVec, handleVector, readInt"]}
{"id": "C143", "title": "The format of STL files", "statement": "Binary STL files are read as binary files, and all others as text.", "quantifier": "all files", "why_tests_cant": "every file and every number of triangles", "anchors": ["VirtualRobot/Import/MeshImport/STLReader.cpp: STLReader::read, checkType"]}
{"id": "C144", "title": "Reading STL files of text", "statement": "Reading a text STL file gives exactly its proper triangles, in their order, with their normals and scaled corners, where equal corners are one vertex.", "quantifier": "all lists of lines and numbers", "why_tests_cant": "every file", "anchors": ["VirtualRobot/Import/MeshImport/STLReader.cpp: readASCII"]}
{"id": "C145", "title": "The bodies of MuJoCo documents", "statement": "The MuJoCo document of a robot has exactly one body for every node, in the body of the node's parent, with the joint, mass and mesh of the node, and for all joint values the body is where the node is in the robot.", "quantifier": "all robots, orders of their nodes and joint values", "why_tests_cant": "every tree, every order in which the nodes are listed, all joint values", "anchors": ["VirtualRobot/XML/mjcf/MujocoIO.cpp: makeNodeBodies, addNodeBody, addNodeBodyMeshes", "VirtualRobot/XML/mjcf/MjcfDocument.cpp: addBodyElement, addInertialElement, addJointElement"]}
{"id": "C146", "title": "No bodies without mass", "statement": "After bodies without mass were removed, every body of the document has a mass. If every body had one before, nothing is changed.", "quantifier": "all trees of bodies", "why_tests_cant": "every tree", "anchors": ["VirtualRobot/XML/mjcf/MasslessBodySanitizer.cpp: sanitize, sanitizeRecursion, sanitizeLeafBody, mergeBodies"]}
{"id": "C147", "title": "Merging bodies keeps the robot", "statement": "After bodies without mass were removed, everything that is seen of the robot, its meshes and sites, is seen at the same place for all joint values. Only sites and masses are added.", "quantifier": "all trees of bodies, joint values and motions of joints", "why_tests_cant": "every tree and all joint values", "anchors": ["VirtualRobot/XML/mjcf/MasslessBodySanitizer.cpp: mergeBodies, copyChildren, updateChildPos, updateChildQuat, updateChildAxis, sanitizeLeafBody"]}
{"id": "C148", "title": "The names of merged bodies", "statement": "The name that is given for a node is that of a body of the document, which has all elements of the node's body. The pairs of bodies without contacts are exactly those the nodes ask for.", "quantifier": "all trees of bodies and lists of pairs", "why_tests_cant": "every tree", "anchors": ["VirtualRobot/XML/mjcf/MasslessBodySanitizer.cpp: getMergedBodyName, getMergedBodySet, MergedBodySet", "VirtualRobot/XML/mjcf/MujocoIO.cpp: addContactExcludes"]}
{"id": "C149", "title": "The scale of MuJoCo documents", "statement": "After lengths were scaled, everything in the document is at the scaled place, for all joint values, where the values and limits of slides are scaled and those of hinges are not.", "quantifier": "all trees of bodies, scalings and joint values", "why_tests_cant": "every tree and all joint values", "anchors": ["VirtualRobot/XML/mjcf/MujocoIO.cpp: scaleLengths"]}
{"id": "C150", "title": "The actuators of MuJoCo documents", "statement": "The document has exactly one actuator for every joint, with its name, and the range of an actuator for positions is the range of its joint.", "quantifier": "all trees of bodies", "why_tests_cant": "every tree", "anchors": ["VirtualRobot/XML/mjcf/MujocoIO.cpp: addActuators", "VirtualRobot/XML/mjcf/MjcfDocument.cpp: addActuatorPositionElement, addActuatorMotorElement, addActuatorVelocityElement"]}
{"id": "C151", "title": "PID controllers", "statement": "The output of a PID controller is the sum of its three terms over exactly the errors since its gains were set or it was reset: the last error, the integral of all errors over their steps, and the change of the last error per time. Nothing from before counts, and gains are only changed by setting them.", "quantifier": "all histories of calls, gains, errors and lengths of steps", "why_tests_cant": "every history", "anchors": ["SimDynamics/DynamicsEngine/DynamicsUtils.cpp: PIDController::update, PIDController::reset"]}
{"id": "C152", "title": "Controllers for torques", "statement": "In every mode the motor gets what the header's diagrams say, with controllers in cascade, and what is not controlled in a step is forgotten.", "quantifier": "all histories of steps, modes, gains and errors", "why_tests_cant": "every history and mode", "anchors": ["SimDynamics/DynamicsEngine/DynamicsUtils.cpp: TorqueMotorController::update"]}
{"id": "C153", "title": "Limits of velocity controllers", "statement": "Whatever is called, velocities and their changes are within the limits of velocity, acceleration and jerk. A velocity that is asked for is reached as fast as the limits allow, without overshoot. Positions that are not controlled are forgotten.", "quantifier": "all histories of calls with steps of positive length", "why_tests_cant": "every history", "anchors": ["SimDynamics/DynamicsEngine/DynamicsUtils.cpp: VelocityMotorController::update, setCurrentVelocity, reset"]}
{"id": "C154", "title": "Reaching positions", "statement": "A joint that has the velocity of its controller comes nearer to its position in every step, at a geometric rate, and never passes it.", "quantifier": "all positions, limits, lengths and numbers of steps, gains that are not too large for the step", "why_tests_cant": "every number of steps", "anchors": ["SimDynamics/DynamicsEngine/DynamicsUtils.cpp: VelocityMotorController::update"]}
{"id": "C155", "title": "The bins of histograms", "statement": "A histogram counts every value exactly once, in the bin whose interval the value is in. A histogram made from data has the least and the largest of them as limits.", "quantifier": "all data, limits and numbers of bins", "why_tests_cant": "every list of values", "anchors": ["VirtualRobot/math/Histogram.cpp: Histogram, insert, valueToIndex, resetBins, setMinMax"]}
{"id": "C156", "title": "Bins and values of histograms", "statement": "The bins with the most and the fewest points are found, the value of a bin is in it, and the median filter gives the median of the neighbourhood of every bin.", "quantifier": "all histograms and sizes of neighbourhoods", "why_tests_cant": "every histogram", "anchors": ["VirtualRobot/math/Histogram.cpp: indexToValue, getMinBinIndex, getMinBinValue, getMaxBinIndex, getMaxBinValue, applyMedianFilter"]}
{"id": "C157", "title": "Colour maps", "statement": "Keys of a colour map can be added in any order. At a key the map has the colour of the key, and between neighbouring keys the colour changes evenly from the one to the other; there is a colour exactly at the positions from 0 to 1 that lie between two keys. Components are numbers from 0 to 1. The maps of all types have a colour at every position from 0 to 1.", "quantifier": "all lists of keys and positions, all sorting functions", "why_tests_cant": "every list of keys and every position", "anchors": ["VirtualRobot/Visualization/ColorMap.cpp: create, addColorKey, sort, getColor"]}
{"id": "C158", "title": "Custom colour maps", "statement": "A map made of a list of colours has a colour at every position from 0 to 1, and the colours of the list are spread evenly, up to the rounding to bytes.", "quantifier": "all lists of colours", "why_tests_cant": "every length of the list", "anchors": ["VirtualRobot/Visualization/ColorMap.cpp: customColorMap"]}
{"id": "C159", "title": "Approximations of spheres: triangles", "statement": "Generating a sphere succeeds for every base polyhedron, number of levels and radius: every level has four times as many faces, the corners of the faces are vertices, all vertices are on the sphere, in the direction they had before, and the faces listed for a vertex are exactly those it is a corner of.", "quantifier": "all bases, levels and radii", "why_tests_cant": "every number of levels and radius", "anchors": ["VirtualRobot/SphereApproximator.cpp: generateGraph, buildVertexFaceMapping, initBasePolyhedron, subDivide, projectToSphere"]}
{"id": "C160", "title": "Approximations of spheres: all directions", "statement": "Every direction from the centre goes through a face of the generated sphere.", "quantifier": "all bases, levels, radii and directions", "why_tests_cant": "all directions", "anchors": ["VirtualRobot/SphereApproximator.cpp: subDivide, initBasePolyhedron, findVertex"]}
{"id": "C161", "title": "Nearest vertices, and rays and triangles", "statement": "Looking up a direction finds the vertex with the least angle to it, or none if all are further away than the given angle. The test of a ray against a triangle succeeds exactly if the ray meets the triangle from the side of its normal, and stores the point where they meet.", "quantifier": "all vectors, lists of vertices, triangles and rays", "why_tests_cant": "real numbers", "anchors": ["VirtualRobot/SphereApproximator.cpp: findVertex, AngleVecVec, check_intersect_tri, check_same_clock_dir"]}
{"id": "C162", "title": "Discretization of approach directions", "statement": "The face found for a position is one the ray from the centre goes through. Nodes can be added to faces, no node is in a face twice, and removed nodes are gone. Choosing a node takes one from the face that has been chosen the fewest times among those that were drawn, counts this choice, and changes nothing else.", "quantifier": "all sequences of operations, all nodes and random numbers", "why_tests_cant": "every history and every random number", "anchors": ["MotionPlanning/ApproachDiscretization.cpp: addCSpaceNode, removeCSpaceNode, clearCSpaceNodeMapping, getGoodRatedNode, getNearestFaceIdVec"]}
{"id": "C163", "title": "Collisions that are switched off", "statement": "Whether two bodies of a simulation collide depends on the history of calls only in this way: the pair collides unless the last call that concerns it switched it off, or one of the two was switched off for all others and not reset. The answer does not depend on the order of the two.", "quantifier": "all histories of calls and all pairs of bodies", "why_tests_cant": "every history", "anchors": ["SimDynamics/DynamicsEngine/DynamicsEngine.cpp: disableCollision, enableCollision, checkCollisionEnabled, resetCollisions", "SimDynamics/DynamicsEngine/DynamicsRobot.cpp: enableSelfCollisions"]}
{"id": "C164", "title": "Objects and robots of a simulation", "statement": "After any history of additions and removals the objects and the robots of the engine are those added and not removed since, each of them once, and searching finds them. Removing a robot removes its bodies, links and constraints.", "quantifier": "all histories, objects and robots", "why_tests_cant": "every history", "anchors": ["SimDynamics/DynamicsEngine/DynamicsEngine.cpp: addObject, removeObject, addRobot, removeRobot, getRobot, getObject", "SimDynamics/DynamicsEngine/BulletEngine/BulletEngine.cpp: addRobot, removeRobot, addLink, removeLink"]}
{"id": "C165", "title": "Attaching objects to simulated robots", "statement": "Attaching an object links it with the nearest node above the given one that has a body, and the two no longer collide. Detaching it removes exactly the links of the object, and everything else is as before.", "quantifier": "all robots, nodes and objects", "why_tests_cant": "every tree and state", "anchors": ["SimDynamics/DynamicsEngine/BulletEngine/BulletRobot.cpp: attachObject, attachObjectLink, detachObject, getLinks"]}
{"id": "C166", "title": "Targets of joints", "statement": "After any history of commands the target of every joint, its modes and the answers of the queries are those of the last command for it that was accepted. Every joint with a target has a controller with the limits of the joint and the gains set last.", "quantifier": "all histories of commands and all joints", "why_tests_cant": "every history", "anchors": ["SimDynamics/DynamicsEngine/DynamicsRobot.cpp: actuateNode, actuateNodeVel, actuateNodeTorque, disableNodeActuation, enableActuation, disableActuation, isNodeActuated, getNodeTarget, setPIDParameters", "SimDynamics/DynamicsEngine/BulletEngine/BulletRobot.cpp: actuateNode, actuateNodeVel"]}
{"id": "C167", "title": "What the motors of a simulated robot are told", "statement": "In every step the torque of a joint is at most its maximal torque, with the sign of the command; the speed of a motor is at most the maximal velocity, changes by at most the maximal acceleration, and the impulse is limited by the maximal torque. The target of a joint that is told to move with a velocity moves on by the velocity times the time. A joint at its target stays at rest, and a joint that is switched off gets no power.", "quantifier": "all joints, targets, controllers and sequences of steps", "why_tests_cant": "real numbers, any number of steps", "anchors": ["SimDynamics/DynamicsEngine/BulletEngine/BulletRobot.cpp: actuateJoints"]}
{"id": "C168", "title": "Poses of nodes without a body", "statement": "After each step all nodes of a simulated robot that have a parent and no body are updated, each of them once and after its parent.", "quantifier": "all robots", "why_tests_cant": "trees of every shape and order", "anchors": ["SimDynamics/DynamicsEngine/BulletEngine/BulletRobot.cpp: setPoseNonActuatedRobotNodes"]}
{"id": "C169", "title": "Paths to sampled grasps", "statement": "If the planner that looks for grasps while it plans reports success, a valid start was set, and the solution is a path from this start to a valid configuration that the inverse kinematics returned for one of the grasps since the last reset. All segments of the path were checked.", "quantifier": "all histories of calls, sets of grasps, IK results, random choices, stop requests, timeouts, node capacities and cycle limits", "why_tests_cant": "every history and every random sequence", "anchors": ["MotionPlanning/Planner/GraspIkRrt.cpp: plan, doPlanningCycle, searchNewGoal, addIKSolution, setGoal, reset", "MotionPlanning/Planner/BiRrt.cpp: createSolution"]}
{"id": "C170", "title": "What planning for grasps leaves behind", "statement": "Planning leaves the robot's switch for the update of its visualization as it was, and every grasp that was tried is taken out of the working set.", "quantifier": "all histories and schedules", "why_tests_cant": "every schedule", "anchors": ["MotionPlanning/Planner/GraspIkRrt.cpp: plan, searchNewGoal", "VirtualRobot/Grasping/GraspSet.cpp: clone, removeGrasp"]}
{"id": "C171", "title": "Elastic bands", "statement": "Processing a path keeps its start and its end. It does not add points, and keeps at least three if there were three. In each round a point moves by at most 70: up to 20 towards the middle between its neighbours and up to 50 away from an obstacle. Away from obstacles the path never gets longer and stays within every convex set around it, such as the joint limits; an evenly spaced straight path does not change.", "quantifier": "all paths, obstacles, weights, C-space distances and numbers of rounds", "why_tests_cant": "real vectors of any dimension, any number of points and rounds", "anchors": ["MotionPlanning/PostProcessing/ElasticBandProcessor.cpp: optimize, elasticBandLoop, checkRemoveNodes, getNeighborCForce, getObstacleForce, getCSpaceForce"]}
{"id": "C172", "title": "Elastic bands and collisions", "statement": "The processed path of a path without collisions has no collisions, and processing always returns a path.", "quantifier": "all paths and obstacles", "why_tests_cant": "every path", "anchors": ["MotionPlanning/PostProcessing/ElasticBandProcessor.cpp: optimize, elasticBandLoop, checkRemoveNodes, getObstacleForce"]}
{"id": "C173", "title": "Manipulability", "statement": "The quality of a pose depends on the Jacobian only, not on the choice of singular vectors or of the frame. With at least six joints the product of singular values is Yoshikawa's measure times the weight of rotations. Product and ratio are never negative, the ratio is at most 1, and both vanish exactly at singular configurations. The quality in a direction is proportional to its length and vanishes exactly if no joint moves along it.", "quantifier": "all Jacobians with any number of joints, all decompositions, rotations and directions", "why_tests_cant": "every Jacobian", "anchors": ["VirtualRobot/IK/PoseQualityManipulability.cpp: getSingularValues, getManipulability, getPoseQuality"]}
{"id": "C174", "title": "Penalty for joint limits", "statement": "The penalty is a factor from 0 to 1: 0 exactly if a joint stands at a limit, largest with all joints in the middle of their ranges. Joints that cannot move do not count.", "quantifier": "all joints, limits and values", "why_tests_cant": "every configuration", "anchors": ["VirtualRobot/IK/PoseQualityManipulability.cpp: getJointLimitPenalizationFactor, penalizeJointLimits"]}
{"id": "C175", "title": "Extended manipulability", "statement": "The penalties for joint limits and obstacles are factors from 0 to 1 that keep the sign of each entry of the Jacobian. They grow towards the limit or obstacle, and only motion towards it is penalized. All 64 combinations of directions are considered, each once, and the smallest quality counts. Without an obstacle and with all joints in the middle of their ranges the extended measure is the plain one.", "quantifier": "all Jacobians, configurations, limits, obstacle vectors and parameters", "why_tests_cant": "every configuration", "anchors": ["VirtualRobot/IK/PoseQualityExtendedManipulability.cpp: considerObstacle, getPenalizedJacobianOctants, getJointLimitWeights, getObstaclePenalty, getManipulability"]}
{"id": "C176", "title": "Maps of the quality", "statement": "At each voxel a map holds the best quality added there, up to half of its 255 steps, whatever the order. It reports 0 exactly where nothing was added, and outside. The analysis of grasps gives exactly the grasps with positive quality, best first.", "quantifier": "all sequences of poses, all sets of grasps", "why_tests_cant": "every sequence", "anchors": ["VirtualRobot/Workspace/Manipulability.cpp: addPose, getManipulabilityAtPose, analyseGrasps, getReachableGrasps"]}
{"id": "C177", "title": "Maps filled by several threads", "statement": "Filling a map with several threads gives the same as with one: at each voxel the best quality added there.", "quantifier": "all numbers of threads, poses and schedules", "why_tests_cant": "every schedule", "anchors": ["VirtualRobot/Workspace/Manipulability.cpp: addRandomTCPPoses, addPose, getCurrentManipulability"]}
{"id": "C178", "title": "Smoothing a map", "statement": "Smoothing changes inner cells only. A new entry is the mean of the positive entries around the cell, rounded down. Reachable cells stay reachable, and a cell becomes reachable only if at least the given number of cells around it are.", "quantifier": "all maps, sizes and numbers of neighbours", "why_tests_cant": "every map", "anchors": ["VirtualRobot/Workspace/Manipulability.cpp: smooth"]}
{"id": "C179", "title": "Linked coordinates", "statement": "A linked coordinate is a pose fixed to a node of its robot. It moves with this node. Changing its frame does not move it, and asking for it in another frame gives the same pose seen from there. Calls with a null node or a node of another robot fail and change nothing. Without a call of set it is the unit matrix in every frame.", "quantifier": "all histories of calls and motions of the robot", "why_tests_cant": "every history", "anchors": ["VirtualRobot/LinkedCoordinate.cpp: set, changeFrame, getInFrame, getCoordinateTransformation", "VirtualRobot/Robot.cpp: hasRobotNode, getRobotNode"]}
{"id": "C180", "title": "Chains of nodes and their extension", "statement": "A set is a kinematic chain exactly if each node is below all nodes before it. The maximum extension of a chain, computed in any configuration, bounds the distance between its root and its TCP in every configuration.", "quantifier": "all trees of nodes, all chains, poses and pairs of configurations", "why_tests_cant": "every pair of configurations", "anchors": ["VirtualRobot/RobotNodeSet.cpp: isKinematicChain, isKinematicRoot, getMaximumExtension", "VirtualRobot/SceneObject.cpp: hasChild, getTransformationTo"]}
{"id": "C181", "title": "Centre of mass", "statement": "Mass times centre of mass is the sum over the nodes. The centre does not depend on their order, combines over groups, lies in the convex hull of the centres of the nodes, and moves with the robot; in the frame of the robot it does not depend on where the robot is.", "quantifier": "all lists of bodies, all rigid motions", "why_tests_cant": "every robot and placement", "anchors": ["VirtualRobot/RobotNodeSet.cpp: getCoM, getMass", "VirtualRobot/Robot.cpp: getCoMGlobal, getCoMLocal, getMass"]}
{"id": "C182", "title": "Support polygon", "statement": "The support polygon is the convex hull of the contacts seen from above, of which those closer than 1e-4 to another one are left out. With fewer than three points left there is no polygon. No contacts make the update throw. The heights of the contacts do not matter.", "quantifier": "all lists of contacts of all models", "why_tests_cant": "every set of contacts", "anchors": ["VirtualRobot/IK/SupportPolygon.cpp: updateSupportPolygon", "VirtualRobot/MathTools.cpp: projectPointToPlane2D, sortPoints, createConvexHull2D, getFloorPlane"]}
{"id": "C183", "title": "Stability index", "statement": "The index is between 0 and 1. It is 0 without a polygon and where the centre of mass is not above the polygon. Otherwise it is the radius of the largest disc around the centre of mass that is inside of the polygon, relative to the one around the centre of the bounding box, at most 1. It is positive exactly above inner points and 1 exactly where all discs fit that fit around the centre.", "quantifier": "all contacts within 1e18 of the origin, all centres of mass", "why_tests_cant": "every polygon and every centre of mass", "anchors": ["VirtualRobot/IK/SupportPolygon.cpp: getStabilityIndex, getSquaredDistLine", "VirtualRobot/MathTools.cpp: isInside, getConvexHullCenter"]}
{"id": "C184", "title": "Step loops of the centre of mass and hierarchical IK", "statement": "The robot ends after at most the allowed number of steps. The result is yes exactly if the steps lead to a solution before a reason to give up, and then the robot is in the first one. A no has one of four reasons, and the robot is then not in a solution. The hierarchical solver is within its tolerances exactly if all of its tasks are.", "quantifier": "all robots, tasks, starts, bounds and numbers of steps", "why_tests_cant": "every sequence of steps", "anchors": ["VirtualRobot/IK/CoMIK.cpp: computeSteps", "VirtualRobot/IK/HierarchicalIKSolver.cpp: computeSteps, checkTolerances"]}
{"id": "C185", "title": "Avoidance of joint limits", "statement": "On its own the task brings every rotational joint closer to the middle of its range by the factor 1 - stepSize in each step. It leaves the other joints alone and keeps all joints in their limits. Its error is stepSize times the way to the middle.", "quantifier": "all joints within their limits, all step sizes between 0 and 1, all numbers of steps", "why_tests_cant": "every number of steps", "anchors": ["VirtualRobot/IK/JointLimitAvoidanceJacobi.cpp: getError, getJacobianMatrix, checkTolerances"]}
{"id": "C186", "title": "Refining a surface", "statement": "Refining a mesh with a positive maximal edge length ends. Every given triangle is replaced by triangles that cover it exactly, have its orientation and its normal, sum up to its area and have no edge longer than asked for. With a length that is not positive a mesh with an edge between two different points is refined for ever. A face with an index outside of the vertices is read out of bounds.", "quantifier": "all meshes and all maximal lengths", "why_tests_cant": "every mesh, and an unbounded recursion", "anchors": ["GraspPlanning/MeshConverter.cpp: RefineObjectSurface, checkAndSplitVertex, hasVertex"]}
{"id": "C187", "title": "No cracks, and the greatest vertex distance", "statement": "A closed surface (every edge is used in one direction as often as in the other) is still closed after the refinement, although each triangle is split on its own. The greatest vertex distance of a mesh is the length of its longest edge, 0 without faces, and after a refinement at most the length asked for.", "quantifier": "all closed meshes, all positive lengths", "why_tests_cant": "every mesh; a crack needs two neighbours with different longest edges", "anchors": ["GraspPlanning/MeshConverter.cpp: RefineObjectSurface, checkAndSplitVertex, getMaxVertexDistance"]}
{"id": "C188", "title": "Answers of the gaze inverse kinematics", "statement": "After a yes the gaze is within the tolerance of the goal. After any answer all joints are within their limits. With distances below FLT_MAX there is always an answer, and with steps that are numbers a no leaves the robot outside of the tolerance. More loops never leave the robot further from the goal. A robot that is in a solution is answered with a yes.", "quantifier": "all kinematics, step functions, limits, bounds and random numbers", "why_tests_cant": "every sequence of random starts and every step function", "anchors": ["VirtualRobot/IK/GazeIK.cpp: solve, trySolve, applyJLA, setJointsRandom, checkTolerances"]}
{"id": "C189", "title": "One descent of the gaze inverse kinematics", "statement": "A descent says yes exactly if the plain steps, brought into the limits, reach a solution within the allowed number of steps and no step before was too small. If the first descent does, the answer does not depend on random numbers.", "quantifier": "all kinematics, step functions without nan, starts and bounds", "why_tests_cant": "every number of steps", "anchors": ["VirtualRobot/IK/GazeIK.cpp: trySolve, solve"]}
{"id": "C190", "title": "The mesh of a convex hull", "statement": "The mesh made of a convex hull consists of the triangles of the hull in their order. Each is oriented to the side its normal points to, whatever its orientation was, and has the unit normal of that orientation. The surface is the same. A face with an index outside of the vertices makes the conversion throw.", "quantifier": "all hulls", "why_tests_cant": "every set of triangles, orientations and normals", "anchors": ["GraspPlanning/MeshConverter.cpp: CreateTriMeshModel", "GraspPlanning/ConvexHullGenerator.cpp: checkVerticeOrientation", "VirtualRobot/Visualization/TriMeshModel.cpp: addTriangleWithFace, CreateNormal"]}
{"id": "C191", "title": "The log of a simulated robot", "statement": "The file has a header and one row for each step of the engine that was taken while logging was switched on, in this order, up to the maximal number of samples, with the time and the readings of that step. All rows have as many cells as the header. Nothing is read out of bounds. Without samples the file is not touched.", "quantifier": "all histories of switching on and off and of steps, all readings, all numbers of joints", "why_tests_cant": "every history", "anchors": ["SimDynamics/DynamicsEngine/BulletEngine/BulletRobotLogger.cpp: startLogging, stopLogging, log, writeToFile"]}
