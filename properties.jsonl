{"id": "C01", "title": "Simulation clock never drifts", "statement": "Advancing a simulation time by the step any number of times gives exactly the start time plus that many steps, as a rational number, as long as the exact value and its common denominator fit the 32-bit fields; no rounding error ever accumulates.", "quantifier": "every start time, every step, every pair of timescales, every number of additions whose result is representable", "why_tests_cant": "drift or overflow shows only after millions of additions or for unusual timescale pairs; a test fixes a handful of pairs", "anchors": ["libvvhd/headers/TTime.hpp: TTime::add, TTime::lcm"]}
{"id": "C02", "title": "Schedule test is exact divisibility", "statement": "Asking whether a time is divisible by a period answers yes exactly when the time is an integer multiple of the period as rational numbers; a zero period is never a divisor.", "quantifier": "every time and period with positive timescales whose least common timescale is representable", "why_tests_cant": "the answer depends on number-theoretic relation of two arbitrary rationals", "anchors": ["libvvhd/headers/TTime.hpp: TTime::divisibleBy"]}
{"id": "C03", "title": "Time arithmetic never aborts", "statement": "Adding two times, or asking divisibility, with positive timescales always returns: no endless loop and no integer trap.", "quantifier": "every pair of int32 values and positive uint32 timescales", "why_tests_cant": "the failing pairs are rare (their least common multiple overflows 32 bits) and sampling misses them", "anchors": ["libvvhd/headers/TTime.hpp: TTime::lcm, TTime::add, TTime::divisibleBy"]}
{"id": "C04", "title": "Decimal seconds convert exactly", "statement": "Giving a time as a decimal number of seconds with at most nine decimals yields a time of exactly that value, with the smallest power-of-ten timescale that represents it.", "quantifier": "every decimal number m/10^k with k at most 9 whose scaled value fits int32", "why_tests_cant": "ranges over 2^32 numerators and ten scales; rounding-like loss shows only on a few", "anchors": ["libvvhd/headers/TTime.hpp: TTime::makeWithSecondsDecimal"]}
{"id": "C05", "title": "Script time assignment is all-or-nothing and denotes what was written", "statement": "Assigning a number, a {value, timescale} table or a 'v/ts' string to a time either stores exactly the rational written, with a positive timescale, or reports an error and leaves the previous time unchanged.", "quantifier": "every Lua value assigned", "why_tests_cant": "the value space (types, table lengths, integers beyond 32 bits, strings) is unbounded", "anchors": ["utils/vvflow/getset.cpp: luavvd_setTTime, luavvd_getTTime"]}
{"id": "C06", "title": "Snapshots are saved exactly on schedule", "statement": "A run writes one snapshot at each of its steps whose time is non-negative and a multiple of the save period, in time order, and none at any other step.", "quantifier": "every start time, step, save period, finish time and flow history, with times inside the range of the clock; every rounding of numbers as accurate as double", "why_tests_cant": "depends on the whole run and on every combination of rational periods", "anchors": ["utils/vvflow/vvflow.cpp: simulate", "libvvhd/headers/TTime.hpp: TTime::divisibleBy"]}
{"id": "C07", "title": "Run performs exactly the steps up to the finish time", "statement": "With a positive step the run stops after finitely many steps; it performs precisely the steps whose time is less than finish plus half a step, and ends at the first time past it.", "quantifier": "every start time, positive step and finite finish time, with times inside the range of the clock", "why_tests_cant": "off-by-one at the end depends on the position of the finish within a step", "anchors": ["utils/vvflow/vvflow.cpp: simulate"]}
{"id": "C08", "title": "Snapshots of different steps never overwrite each other", "statement": "Two different steps of one run write snapshots to different files, and the file number is the step's index in units of the step.", "quantifier": "every caption and every pair of saved steps of a run", "why_tests_cant": "collisions need specific (long or %-containing) captions or step counts", "anchors": ["utils/vvflow/vvflow.cpp: simulate", "libvvhd/src/TSpace.cpp: Space::save"]}
{"id": "C09", "title": "Step log stays aligned", "statement": "After any number of steps every column of the step log (time, forces, positions, speeds, profiles of each body) has the same number of rows, and row k of each was taken at the time in row k.", "quantifier": "every number of bodies, steps and profile option", "why_tests_cant": "an invariant over all histories", "anchors": ["libvvhd/src/MStepdata.cpp: Stepdata::Stepdata, Stepdata::write, Stepdata::append, Stepdata::h5d_init"]}
{"id": "C10", "title": "Step log after resuming equals the uninterrupted log", "statement": "If a run is stopped at any point and resumed from a snapshot taken at time T, the log finally holds the rows of the uninterrupted run: rows before T are kept, rows at or after T are replaced, none lost or duplicated.", "quantifier": "every crash point, snapshot time and previous log content of the run", "why_tests_cant": "quantifies over crash points and over previous file contents", "anchors": ["libvvhd/src/MStepdata.cpp: Stepdata::Stepdata, h5d_init", "utils/vvflow/vvflow.cpp: simulate"]}
{"id": "C11", "title": "Restarting from a snapshot continues the same simulation", "statement": "Loading the snapshot written at a step and running on produces the same flow states as the run that was not interrupted.", "quantifier": "every simulation state at a save point and every number of further steps", "why_tests_cant": "needs equality of all later states for all possible states", "anchors": ["utils/vvflow/vvflow.cpp: simulate", "libvvhd/src/TSpace_save_hdf.cpp", "libvvhd/src/TSpace_load_hdf.cpp", "libvvhd/src/MFlowmove.cpp: MFlowmove::heat_shed"]}
{"id": "C12", "title": "Cached expression values are the true values", "statement": "Evaluating a user expression at a time returns what a fresh evaluation of the currently assigned expression returns at that time (or the same error), whatever was evaluated or assigned before.", "quantifier": "every sequence of assignments and evaluations", "why_tests_cant": "stale cache entries appear only for particular interleavings of assignments and times", "anchors": ["libvvhd/src/TEval.cpp: TEval::eval, TEval::operator="]}
{"id": "C13", "title": "Rejected expression leaves the old one in force", "statement": "Assigning an expression that does not parse, fails at time 0 or is not a number at time 0 raises an error and leaves the previously assigned expression and all its values unchanged; assigning the empty string makes the value zero everywhere.", "quantifier": "every sequence of good, bad and empty assignments", "why_tests_cant": "history-dependent", "anchors": ["libvvhd/src/TEval.cpp: TEval::operator="]}
{"id": "C14", "title": "Unknown registry is a bijection", "statement": "After registering unknowns for columns 0..N-1 of a matrix of size N, looking up an unknown gives the column it was last registered for and looking up the column gives the unknown; the self test passes.", "quantifier": "every size, every previous registration history, every list of distinct unknown addresses", "why_tests_cant": "history-dependent: re-registration after resizing or moved bodies", "anchors": ["libvvhd/src/TMatrix.cpp: Matrix::setSolutionForCol, getColForSolution, getSolutionForCol, resize, selfTest"]}
{"id": "C15", "title": "Solved unknowns satisfy the linear system", "statement": "After a solve every registered unknown holds the component of the solution of the filled system for its column, in direct and in inverse-matrix mode.", "quantifier": "every matrix size, every invertible filled matrix, every right column, every mode, every previous solve", "why_tests_cant": "row/column-major mistakes and stale inverses depend on matrix content and on call history", "anchors": ["libvvhd/src/TMatrix.cpp: Matrix::solveUsingInverseMatrix, FillInverseMatrix, transpose"]}
{"id": "C16", "title": "A cached inverse is used only for the matrix it inverts", "statement": "The inverse matrix used for a solve is always the inverse of the currently filled matrix.", "quantifier": "every history of resizes, fills and solves", "why_tests_cant": "depends on 32-bit hash equality between arbitrary matrices, on sizes and on call order", "anchors": ["libvvhd/src/TMatrix.cpp: Matrix::FillInverseMatrix, SuperFastHash, resize"]}
{"id": "C17", "title": "Equations and unknowns are numbered consistently", "statement": "For every list of bodies the linear system has exactly one equation per segment plus nine per body, equation numbers run 0..N-1 without gap or repetition, every equation is filled exactly once, and unknown numbers of different segments and bodies are disjoint and agree with the enumeration stored in the bodies.", "quantifier": "every list of bodies and segment counts", "why_tests_cant": "inductive over the body list", "anchors": ["libvvhd/src/MConvectiveFast.cpp: calc_circulation, fill_matrix", "libvvhd/src/TSpace.cpp: Space::EnumerateBodies"]}
{"id": "C18", "title": "Parallel assembly has no write conflicts", "statement": "Equations filled in parallel write disjoint rows, so the assembled system is the same for every thread schedule.", "quantifier": "every body list and every execution order of the fill jobs", "why_tests_cant": "schedules are unbounded and unreproducible", "anchors": ["libvvhd/src/MConvectiveFast.cpp: fill_matrix"]}
{"id": "C19", "title": "Exactly one body closes the total circulation", "statement": "The global circulation equation is used for exactly one segment: the special segment of the first body with a steady condition; every other steady body uses its own balance, every Kutta body a zero-strength special segment.", "quantifier": "every list of bodies, conditions and special segment numbers in range", "why_tests_cant": "combinatorial in the body list", "anchors": ["libvvhd/src/MConvectiveFast.cpp: fill_matrix"]}
{"id": "C20", "title": "Total circulation equals the prescribed one", "statement": "After the linear system is solved, the free circulation plus newly born circulation plus twice area times angular velocity of the bodies plus the circulation at infinity is zero whenever a steady body exists.", "quantifier": "every solved system", "why_tests_cant": "a statement about every solution of the assembled system", "anchors": ["libvvhd/src/MConvectiveFast.cpp: fillInfSteadyEquationForSegment, fillSteadyEquationForSegment, fillZeroEquationForSegment"]}
{"id": "C21", "title": "Refilling only the right column gives the same system", "statement": "Filling only the right column writes the same right column as a full fill of the same state and leaves the matrix untouched; it is only used when no body position influencing the matrix can have changed since the full fill.", "quantifier": "every flow state and every history of solves", "why_tests_cant": "needs state equality over all histories", "anchors": ["libvvhd/src/MConvectiveFast.cpp: fill_matrix, can_use_inverse, calc_circulation"]}
{"id": "C22", "title": "Collision handling is a two-solve handshake", "statement": "When a body hits its limit, the next first solve fixes that degree of freedom's speed to zero and the second solve replaces it by the spring law plus (1+bounce) times the holder force just obtained; afterwards the collision flag is clear.", "quantifier": "every body list, every degree of freedom, every collision state", "why_tests_cant": "state machine over body list order and step history", "anchors": ["libvvhd/src/MConvectiveFast.cpp: fill_matrix, calc_circulation", "utils/vvflow/vvflow.cpp: simulate"]}
{"id": "C23", "title": "Tree keeps every particle exactly once", "statement": "Building the tree only permutes the particle lists, and every particle and every body segment belongs to exactly one bottom node.", "quantifier": "every set of particles and segments, all node-size parameters", "why_tests_cant": "partition bugs occur for particular coordinate ties", "anchors": ["libvvhd/src/TSortedTree.cpp: DivideNode, DistributeContent, build"]}
{"id": "C24", "title": "Locating a particle returns its own node", "statement": "Looking up the position of any particle or segment centre of a built tree returns the bottom node that contains it.", "quantifier": "every built tree and every contained position", "why_tests_cant": "boundary ties", "anchors": ["libvvhd/src/TSortedTree.cpp: findNode, DivideNode"]}
{"id": "C25", "title": "Near and far interaction lists cover everything once", "statement": "For every bottom node the near nodes and far nodes together contain every particle exactly once, and the node itself is among its near nodes.", "quantifier": "every built tree with farCriteria at least 1 and every bottom node (coverage: any farCriteria)", "why_tests_cant": "double counting appears in particular tree shapes", "anchors": ["libvvhd/src/TSortedTree.cpp: FindNearNodes, build"]}
{"id": "C26", "title": "Far nodes are separated", "statement": "Every node in a far list is further than the criterion: squared centre distance exceeds farCriteria times squared sum of the sizes; hence all particles of the two nodes are apart by a positive distance when farCriteria is at least 1.", "quantifier": "every built tree, every bottom node and every far node", "why_tests_cant": "geometric statement over all particle sets", "anchors": ["libvvhd/src/TSortedTree.cpp: FindNearNodes, Stretch"]}
{"id": "C27", "title": "Node moments are the moments of its particles", "statement": "Each node's positive and negative circulation are the sums over its particles, and circulation times centre of each sign equals the sum of circulation times position.", "quantifier": "every built tree", "why_tests_cant": "inductive over tree shape", "anchors": ["libvvhd/src/TSortedTree.cpp: CalculateCMass, CalculateCMassFromScratch"]}
{"id": "C28", "title": "Node boxes contain their particles", "statement": "Every particle and segment of a node lies inside the node's rectangle, and the rectangle is the smallest such.", "quantifier": "every built tree and every node", "why_tests_cant": "inductive over all particle sets", "anchors": ["libvvhd/src/TSortedTree.cpp: Stretch, DivideNode"]}
{"id": "C29", "title": "Tree building terminates", "statement": "Building the tree ends for every finite set of finite positions when the maximal node size is positive and the minimal node size is non-negative.", "quantifier": "every particle set (including coincident particles) and all admissible parameters", "why_tests_cant": "non-termination inputs are special (coincident points, zero sizes)", "anchors": ["libvvhd/src/TSortedTree.cpp: DivideNode"]}
{"id": "C30", "title": "Rebuilding the tree on sorted particles changes nothing", "statement": "Building the tree again without moving particles leaves the particle order unchanged.", "quantifier": "every particle set", "why_tests_cant": "stability of partition for every input", "anchors": ["libvvhd/src/TSortedTree.cpp: DistributeContent, build, destroy"]}
{"id": "C31", "title": "Shedding turns attached circulation into vortices", "statement": "Vortex shedding appends, in segment order, one vortex per no-slip segment whose strength is at least the threshold, of exactly that strength and just outside the segment corner; other segments shed nothing; existing particles are untouched.", "quantifier": "every body list and strengths", "why_tests_cant": "threshold and slip combinations over all lists", "anchors": ["libvvhd/src/MFlowmove.cpp: vortex_shed"]}
{"id": "C32", "title": "Circulation is conserved by a step", "statement": "Over shedding, moving and cleaning, the change of total free circulation equals the born circulation minus what the bodies record as dead, up to particles below the threshold that are dropped; each body's dead circulation and its surface sums account exactly for what entered it.", "quantifier": "every flow state and every particle motion", "why_tests_cant": "a balance over all states", "anchors": ["libvvhd/src/MFlowmove.cpp: vortex_shed, move_and_clean", "libvvhd/src/MEpsilonFast.cpp: MergeVortexes"]}
{"id": "C33", "title": "Particles move with their velocity", "statement": "Moving displaces each surviving vortex, heat and ink particle by its velocity times the step actually taken, preserves their order and strength, and resets velocities to zero.", "quantifier": "every particle list", "why_tests_cant": "erase-while-iterating bugs show for adjacent removals", "anchors": ["libvvhd/src/MFlowmove.cpp: move_and_clean"]}
{"id": "C34", "title": "No free vortex remains inside a body", "statement": "After cleaning, no vortex, heat or ink particle lies inside a body and no vortex is weaker than the threshold; every removed particle was inside a body or below the threshold.", "quantifier": "every particle list and body list", "why_tests_cant": "consecutive removals and multiple bodies", "anchors": ["libvvhd/src/MFlowmove.cpp: move_and_clean"]}
{"id": "C35", "title": "Heat shed is accounted on the segments", "statement": "Heat shedding adds to the flow exactly the heat recorded on segments: for constant temperature bodies each segment's layer particle ends with the prescribed amount, for constant flux one new particle of the prescribed amount per segment, insulated bodies return exactly the absorbed heat, neglected bodies nothing.", "quantifier": "every body list, segment state and heat list", "why_tests_cant": "combinatorial over conditions and particle bookkeeping", "anchors": ["libvvhd/src/MFlowmove.cpp: heat_shed"]}
{"id": "C36", "title": "Heat layer particle of a segment is the one that was found", "statement": "When a constant-temperature segment renews its heat-layer particle, the particle renewed is the one that was found in its layer during the previous move.", "quantifier": "every sequence of move, crop, tree build and shed", "why_tests_cant": "index invalidation needs specific histories", "anchors": ["libvvhd/src/MFlowmove.cpp: move_and_clean, heat_crop, heat_shed", "utils/vvflow/vvflow.cpp: simulate", "libvvhd/src/TSortedTree.cpp: build"]}
{"id": "C37", "title": "Ink is released on its own schedule", "statement": "At each step whose time is a multiple of the ink period all ink sources are copied to the ink list in order; at other steps and for a zero period nothing is released.", "quantifier": "every time, period and source list", "why_tests_cant": "schedule over all rationals", "anchors": ["libvvhd/src/MFlowmove.cpp: streak_shed"]}
{"id": "C38", "title": "Bodies never pass their stops", "statement": "After a move no elastically held body that was within its collision limits has a coordinate beyond them, and the step taken is never longer than the nominal step nor negative; the collision flag names a limiting degree of freedom exactly when the step was shortened.", "quantifier": "every body list, limits (including unset), speeds and step", "why_tests_cant": "minimum over all bodies and axes with NaN-coded unset limits", "anchors": ["libvvhd/src/MFlowmove.cpp: move_and_clean"]}
{"id": "C39", "title": "Linked bodies stay attached", "statement": "After a move the holder of a body mounted on a root has exactly the position obtained by rotating it rigidly with the root plus its own prescribed motion, at every depth of the chain.", "quantifier": "every chain of linked bodies, angles and steps", "why_tests_cant": "identity with trigonometric functions over all chains", "anchors": ["libvvhd/src/MFlowmove.cpp: move_and_clean", "libvvhd/src/TBody.cpp: TBody::move"]}
{"id": "C40", "title": "Moving bodies terminates for every link structure a script can build", "statement": "Moving the bodies ends for every assignment of root bodies accepted by the scripting interface.", "quantifier": "every root assignment, including cyclic ones", "why_tests_cant": "cyclic inputs make the loop endless, a test would hang", "anchors": ["libvvhd/src/MFlowmove.cpp: move_and_clean", "utils/vvflow/lua_tbody.cpp: luavvd_setrootbody"]}
{"id": "C41", "title": "Merging vortices conserves circulation and impulse", "statement": "Merging two vortices leaves total circulation unchanged, leaves the sum of circulation times position unchanged when they have the same sign, and puts the result on the stronger one otherwise; the merged partner has zero strength.", "quantifier": "every pair of vortices", "why_tests_cant": "sign and zero cases over all reals", "anchors": ["libvvhd/src/MEpsilonFast.cpp: MergeVortexes"]}
{"id": "C42", "title": "Smoothing radius is the distance to the second nearest neighbour", "statement": "For every vortex the smoothing radius is the larger of a third of the nearest segment's length and the distance to the second nearest other vortex in the near nodes (to the nearest if there is only one).", "quantifier": "every particle set", "why_tests_cant": "running two-minimum search over all orders and ties", "anchors": ["libvvhd/src/MEpsilonFast.cpp: epsv, epsh, CalcEpsilonFast"]}
{"id": "C43", "title": "Whole merging pass conserves and counts", "statement": "A smoothing pass conserves total circulation and total heat, changes nothing but radii in inviscid mode, and the reported number of merges is the number of particles whose strength became zero by merging.", "quantifier": "every tree and particle set", "why_tests_cant": "pass mutates strengths while iterating", "anchors": ["libvvhd/src/MEpsilonFast.cpp: CalcEpsilonFast"]}
{"id": "C44", "title": "Nearest segment search finds the nearest one", "statement": "When any segment is in the near nodes the returned segment is one of minimal distance among them; when there is none and some body exists, some segment is returned.", "quantifier": "every tree, point and body list", "why_tests_cant": "search with early skipping", "anchors": ["libvvhd/src/MEpsilonFast.cpp: nearestBodySegment"]}
{"id": "C45", "title": "Body segments form a closed contour", "statement": "After any load, move or copy each segment vector points from its corner to the next corner cyclically, the centre is the midpoint, segment vectors sum to zero, and the corner list is unchanged.", "quantifier": "every non-empty corner list", "why_tests_cant": "inductive over list length", "anchors": ["libvvhd/src/TBody.cpp: doUpdateSegments"]}
{"id": "C46", "title": "Rigid motion preserves body geometry", "statement": "Moving a body rotates and translates all corners rigidly: all distances, surface length and area are unchanged, centre of mass moves with the body, and moment of inertia about it is unchanged.", "quantifier": "every body, displacement and angle", "why_tests_cant": "algebraic identities over all polygons", "anchors": ["libvvhd/src/TBody.cpp: move, doFillProperties"]}
{"id": "C47", "title": "Body position bookkeeping", "statement": "After a move the body axis has moved by exactly the body displacement, the holder by the holder displacement, and the elastic offset by their difference; the previous speed is the solved speed.", "quantifier": "every body and displacement", "why_tests_cant": "algebraic over all states", "anchors": ["libvvhd/src/TBody.cpp: move", "libvvhd/headers/TBody.hpp: get_axis"]}
{"id": "C48", "title": "Quick rejection never changes the inside test", "statement": "For bodies of positive area the bounding box and disc shortcut rejects only points that the contour test would also reject.", "quantifier": "every polygon and point", "why_tests_cant": "boundary cases of ray casting over all polygons", "anchors": ["libvvhd/src/TBody.cpp: isPointInContour, doFillProperties"]}
{"id": "C49", "title": "Inside test is the even-odd rule independent of representation", "statement": "The inside test of a contour does not depend on which corner the list starts with nor on the traversal direction, and is invariant under translation of contour and point.", "quantifier": "every polygon and point off its boundary", "why_tests_cant": "all polygons", "anchors": ["libvvhd/src/TBody.cpp: isPointInContour"]}
{"id": "C50", "title": "Inside test reports the nearest segment", "statement": "When a point is reported inside, the returned segment is the one whose centre is nearest (the first such); a point is reported inside only if the body has a segment.", "quantifier": "every body and point", "why_tests_cant": "argmin over all lists", "anchors": ["libvvhd/src/TBody.cpp: isPointInContour"]}
{"id": "C51", "title": "Heat layer follows the body", "statement": "The heat layer test of a body uses the layer of its current position.", "quantifier": "every body and every history of moves", "why_tests_cant": "cache staleness needs a move after first use", "anchors": ["libvvhd/src/TBody.cpp: isPointInHeatLayer, move"]}
{"id": "C52", "title": "Body validation accepts exactly admissible bodies", "statement": "Strict validation passes exactly when damping is finite, spring constants are non-negative numbers or infinite and each upper collision limit exceeds the lower one; lenient validation never fails and only turns negative spring constants into rigid. A body just made passes the strict checks, is rigid and at rest, has no limits of motion, and has the density of the fluid, so gravity does not act on it.", "quantifier": "every combination of values including NaN and infinity", "why_tests_cant": "27+ branch combinations of special floats", "anchors": ["libvvhd/src/TBody.cpp: validate", "libvvhd/headers/TBody.hpp: isrigid"]}
{"id": "C53", "title": "Snapshot round trip", "statement": "Saving a simulation and loading it into an empty one restores all persistent parameters, particle positions and strengths, and bodies with their corners, strengths, links and conditions.", "quantifier": "every saveable simulation state", "why_tests_cant": "state space unbounded", "anchors": ["libvvhd/src/TSpace_save_hdf.cpp", "libvvhd/src/TSpace_load_hdf.cpp", "libvvhd/src/vvhdf.cpp"]}
{"id": "C54", "title": "Body order survives a round trip", "statement": "Bodies are loaded in the order in which they were saved.", "quantifier": "every number of bodies", "why_tests_cant": "fails only above a hundred bodies", "anchors": ["libvvhd/src/TSpace_save_hdf.cpp: save_hdf", "libvvhd/src/TSpace_load_hdf.cpp: list_bodies, load_hdf"]}
{"id": "C55", "title": "Root links survive a round trip", "statement": "A body mounted on another body of the list is, after loading, mounted on the copy of that body; saving with a root outside the list is refused; unknown root names load as no root.", "quantifier": "every link structure", "why_tests_cant": "graph structure over all lists", "anchors": ["libvvhd/src/TSpace_save_hdf.cpp: save_hdf", "libvvhd/src/TSpace_load_hdf.cpp: dataset_read_body"]}
{"id": "C56", "title": "Loading replaces the previous content", "statement": "After loading a file every parameter, every particle list and the body list hold exactly what the file holds; a parameter that the file lacks has its default.", "quantifier": "every previous content and file", "why_tests_cant": "leftovers appear only if the file lacks a dataset", "anchors": ["libvvhd/src/TSpace.cpp: Space::load", "libvvhd/src/TSpace_load_hdf.cpp"]}
{"id": "C57", "title": "Condition codes round trip", "statement": "Boundary and heat conditions are restored from the codes they are saved as; files of the older format map their letter codes to the same conditions.", "quantifier": "every condition, and every legacy code", "why_tests_cant": "needs the full table including unknown codes", "anchors": ["libvvhd/src/vvhdf.cpp", "libvvhd/src/TSpace_load_hdf.cpp: dataset_read_body"]}
{"id": "C58", "title": "Field files round trip", "statement": "Writing an evaluated field and reading it back gives the same resolution, origin, spacing and values.", "quantifier": "every field with at least two columns and rows", "why_tests_cant": "all resolutions and contents", "anchors": ["libvvhd/src/XField.cpp: operator<<, XField(const std::string&)"]}
{"id": "C59", "title": "Malformed field data is rejected", "statement": "Reading a byte string succeeds only if its length is that of a complete matrix with the stated number of columns and the spacing is uniform; otherwise an error is raised and nothing outside the string is read.", "quantifier": "every byte string", "why_tests_cant": "arbitrary input", "anchors": ["libvvhd/src/XField.cpp: XField(const std::string&)"]}
{"id": "C60", "title": "Field statistics are correct", "statement": "Minimum and maximum are attained bounds; percentile(p) returns the value of rank floor(n·p) among non-zero values from the nearer end.", "quantifier": "every field and p in (0,1)", "why_tests_cant": "rank and ties over all arrays", "anchors": ["libvvhd/src/XField.cpp: min, max, percentile"]}
{"id": "C61", "title": "Isolines keep all segments", "statement": "The polylines of an isoline consist of exactly the segments found in the cells: none lost, none invented.", "quantifier": "every sequence of committed segments", "why_tests_cant": "merging order over all segment sequences", "anchors": ["libvvhd/src/XIsoline.cpp: commit_segment, merge_lines"]}
{"id": "C62", "title": "Isoline crosses a cell an even number of times", "statement": "In every cell an isoline value is crossed on 0, 2 or 4 sides, each crossing point lies on its side where the linear interpolation equals the value, and each side shared by two cells gets the same point.", "quantifier": "every corner values and level", "why_tests_cant": "boundary equalities over all reals", "anchors": ["libvvhd/src/XIsoline.cpp: process_rect, inrange"]}
{"id": "C63", "title": "Script body list is a duplicate-free sequence", "statement": "Insert appends a body not yet in the list and is refused otherwise without change; erase removes exactly that body keeping the order of the others, or is refused; index and iteration return bodies in order 1..n.", "quantifier": "every sequence of operations", "why_tests_cant": "operation histories", "anchors": ["utils/vvflow/lua_bodylist.cpp"]}
{"id": "C64", "title": "Script particle list append", "statement": "Appending several particles in one call either appends all of them in order or, if any argument is invalid, none; iteration returns every element once in order.", "quantifier": "every argument list", "why_tests_cant": "position of the invalid argument", "anchors": ["utils/vvflow/lua_objlist.cpp"]}
{"id": "C65", "title": "Generator parameters", "statement": "A shape generator accepts a parameter table exactly when every required parameter is a finite number in range, optional ones are absent or valid, and there is no other key; calling it twice with the same table gives the same result.", "quantifier": "every table", "why_tests_cant": "arbitrary tables and histories", "anchors": ["utils/vvflow/gen_body.cpp: get_param", "utils/vvflow/gen_box.cpp", "utils/vvflow/gen_plate.cpp"]}
{"id": "C66", "title": "Generated segments are uniform", "statement": "A generated straight piece has round(length/dl) points equally spaced starting at the first end and not including the second; an arc piece has round(R·|angle|/dl) points on the circle at equal angles; chained pieces connect.", "quantifier": "every end points, radius, angles and spacing", "why_tests_cant": "all reals", "anchors": ["utils/vvflow/gen_body.cpp: gen_seg_N, gen_seg_dl, gen_arc_N, gen_arc_dl"]}
{"id": "C67", "title": "Plot window covers what was asked", "statement": "From any admissible combination of window edges, centre and size given on the command line the plotting tool derives a window with the requested edges and ordered limits, and the mesh covers the window with equal spacing in both directions.", "quantifier": "every combination of range and size options", "why_tests_cant": "combination space", "anchors": ["utils/vvplot/optparse.cpp"]}
{"id": "C68", "title": "Moving average column is the mean of the last values", "statement": "Row k of the moving average output holds the mean of the last min(k, span) values of the column.", "quantifier": "every input column and span", "why_tests_cant": "running-sum invariant over all lengths", "anchors": ["utils/scripts/vvawk.mavg"]}
{"id": "C69", "title": "Averages and deviations use the selected range", "statement": "Average and standard deviation are those of the rows with xmin < x < xmax as given by the user.", "quantifier": "every column and range, including zero limits", "why_tests_cant": "special value zero", "anchors": ["utils/scripts/vvawk.avg", "utils/scripts/vvawk.sd"]}
{"id": "C70", "title": "Reported zeros are zeros", "statement": "Each reported zero lies between the abscissas of a sign change (or at a zero value), where linear interpolation vanishes; each sign change inside the range is reported exactly once.", "quantifier": "every data set", "why_tests_cant": "all sign patterns", "anchors": ["utils/scripts/vvawk.zeros"]}
{"id": "C71", "title": "Amplitude uses window extrema", "statement": "The amplitude is the mean of local maxima minus the mean of local minima, where a row is extremal if no value within the window around it exceeds it.", "quantifier": "every column and span, including the default", "why_tests_cant": "circular buffer indexing over all lengths and spans", "anchors": ["utils/scripts/vvawk.ampl"]}
{"id": "C72", "title": "Derivative column is the row difference", "statement": "Each output row but the first input row holds the difference to the previous input row divided by the divisor, other columns unchanged.", "quantifier": "every table", "why_tests_cant": "inductive over rows", "anchors": ["utils/scripts/vvawk.drv"]}
{"id": "C73", "title": "Surface pressure is the running circulation sum", "statement": "Pressure at segment k grows per step by the sum of circulation sums of segments 0..k; after the step surface sums, dead circulation and dead impulse are zero and the previous friction is the friction just computed.", "quantifier": "every body list", "why_tests_cant": "prefix sums over all lists", "anchors": ["libvvhd/src/TSpace.cpp: Space::calc_forces, Space::zero_forces"]}
{"id": "C74", "title": "A vortex does not move itself and pairs conserve impulse", "statement": "The velocity a vortex induces at its own position is zero, and for equal smoothing radii the impulse of a pair (sum of circulation times velocity) is zero.", "quantifier": "every vortex pair", "why_tests_cant": "all reals", "anchors": ["libvvhd/src/MConvectiveFast.cpp: biot_savart, near_nodes_influence"]}
{"id": "C75", "title": "Diffusion velocity is finite and directed", "statement": "The diffusion velocity computed for a vortex never divides by zero: denominators keep the sign of the vortex and a lower bound.", "quantifier": "every particle configuration with positive radii", "why_tests_cant": "cancellation for special configurations", "anchors": ["libvvhd/src/MDiffusiveFast.cpp: process_vort_list, process_heat_list, vortex_influence, segment_influence"]}
{"id": "C76", "title": "Points of the heat layer are found", "statement": "A point inside the heat layer contour around a body is reported by the heat layer test, together with the nearest segment.", "quantifier": "every body and every point of its layer", "why_tests_cant": "depends on the position of the point relative to the box of the body, for all shapes", "anchors": ["libvvhd/src/TBody.cpp: isPointInHeatLayer, isPointInContour"]}
{"id": "C77", "title": "Slip flags come from their own line", "statement": "Loading a body from a text file gives each segment the slip flag of its own line; a line without a flag gives a segment without slip.", "quantifier": "every text file", "why_tests_cant": "all combinations of lines with and without the third column", "anchors": ["libvvhd/src/TBody.cpp: load_txt"]}
{"id": "C78", "title": "The inside test separates inside from outside", "statement": "Two points joined by a straight segment that does not meet the contour are both reported inside the body or both outside; points far from a body of positive area are outside.", "quantifier": "every body (any polygon) and every pair of points", "why_tests_cant": "a topological statement over all polygons and points, with corner cases of measure zero", "anchors": ["libvvhd/src/TBody.cpp: isPointInContour, isPointInvalid"]}
{"id": "C79", "title": "Body geometry does not depend on the representation", "statement": "Area (shoelace, positive for clockwise order), length, centre of mass and moment of inertia do not depend on the first corner of the list; the opposite order negates area and moment of inertia and keeps length and centre of mass.", "quantifier": "every non-empty corner list", "why_tests_cant": "algebraic identities over all polygons", "anchors": ["libvvhd/src/TBody.cpp: doFillProperties"]}
{"id": "C80", "title": "Values of the body geometry", "statement": "For a triangle the centre of mass is the mean of the corners and the moment of inertia is the area times the sum of squared sides over 36; cutting a body along a diagonal adds areas, area-weights the centres of mass and adds the moments of inertia with Steiner's terms.", "quantifier": "every triangle and every polygon and diagonal", "why_tests_cant": "algebraic identities over all polygons", "anchors": ["libvvhd/src/TBody.cpp: doFillProperties"]}
{"id": "C81", "title": "Absorbed heat is accounted", "statement": "In a move, the total heat of the particles that disappear, other than those below the removal threshold, is subtracted from the heat accounts of body segments, and each such particle was inside a body or in the heat layer of a body of constant temperature.", "quantifier": "every flow state and particle list", "why_tests_cant": "sums over arbitrary lists of particles and bodies with early exits", "anchors": ["libvvhd/src/MFlowmove.cpp: move_and_clean"]}
{"id": "C82", "title": "Distances used by the field outputs", "statement": "For a point in a node, the two search functions return the square of the distance to the second nearest vortex at a non-zero distance in the near nodes (to the only one; a lowest number when there is none) and to the nearest segment in the near nodes (infinity when there is none).", "quantifier": "every point, tree and particle set", "why_tests_cant": "running two-minimum search over all orders and ties", "anchors": ["libvvhd/src/MEpsilonFast.cpp: eps2h, h2"]}
{"id": "C83", "title": "When particles are merged", "statement": "In a smoothing pass with merging, a particle of non-zero strength is merged exactly when at least two others of non-zero strength are in the near nodes and the nearest is closer than the criterion (0.4 times the segment length times the square root of one plus the distance of the segment from the node), or, for vortices, the two nearest have one sign and it has another; it is merged with the nearest.", "quantifier": "every particle set", "why_tests_cant": "search and decision over all configurations", "anchors": ["libvvhd/src/MEpsilonFast.cpp: epsv, epsh, CalcEpsilonFast"]}
{"id": "C84", "title": "Cropping of heat", "statement": "Cropping keeps every heat particle whose abscissa is at most the limit, unchanged and in order, and drops the others.", "quantifier": "every heat list and limit", "why_tests_cant": "erasing while iterating", "anchors": ["libvvhd/src/MFlowmove.cpp: heat_crop"]}
{"id": "C85", "title": "Far field of the fast summation", "statement": "The velocity a particle gets from far nodes of the tree equals the sum of the velocities of one positive and one negative point vortex per far node, each with a relative error of at most 1/32 when the far factor is 8 as in the simulation, and no division by zero occurs; the whole convective velocity is the sum of inflow, near vortices, sources, slip segments and this far field.", "quantifier": "every set of particles, every node of the built tree and every particle in it", "why_tests_cant": "the error bound is over all configurations", "anchors": ["libvvhd/src/MConvectiveFast.cpp: process_all_lists, near_nodes_influence, biot_savart", "libvvhd/src/TSortedTree.cpp: TSortedNode::FindNearNodes, CalculateCMass"]}
{"id": "C86", "title": "A sink is never overshot", "statement": "During one step a source or sink alone moves a particle along the line between them by at most half of their distance, towards a sink and away from a source; several sources act additively.", "quantifier": "every particle, source strength and positive step", "why_tests_cant": "all reals, including particles arbitrarily close to the sink", "anchors": ["libvvhd/src/MConvectiveFast.cpp: sink_list_influence"]}
{"id": "C87", "title": "Friction on the surface", "statement": "The diffusion step adds to the friction of a segment, for every vortex of every node that has the segment in its neighbourhood and is within eight radii, the square of its inverse radius times its circulation times the exponential of the scaled distance times the segment length; nothing else of the segments changes.", "quantifier": "every arrangement of nodes, vortices and segments", "why_tests_cant": "sums over all nodes, with segments shared between nodes", "anchors": ["libvvhd/src/MDiffusiveFast.cpp: process_vort_list, segment_influence"]}
{"id": "C88", "title": "Newton's law for moving bodies", "statement": "After the linear system is solved, the velocities found for each body obey the momentum balance of a rigid body: density times area times the acceleration of the centre of mass over the step (with the centripetal part) equals the hydrodynamic force minus the holder's force plus the reactions of the bodies mounted on it plus the weight less buoyancy; and the same for the torque about the axis.", "quantifier": "every scene, body, step and solution of the system", "why_tests_cant": "the balance ties together unknowns of several bodies in a dense system; a test sees one scene and one tolerance", "anchors": ["libvvhd/src/MConvectiveFast.cpp: fillNewtonXEquation, fillNewtonYEquation, fillNewtonOEquation"]}
{"id": "C89", "title": "A rigidly held body moves as its holder prescribes", "statement": "If a degree of freedom of a body is held rigidly, the velocity found for it is the prescribed speed plus the velocity of the body it is mounted on at the point where it is held; with no root it is the prescribed speed.", "quantifier": "every scene, every chain of mounted bodies and every degree of freedom", "why_tests_cant": "every combination of root motion, offset and displacement; the error of one component vanishes in symmetric scenes", "anchors": ["libvvhd/src/MConvectiveFast.cpp: fillSpeedXEquation, fillSpeedYEquation, fillSpeedOEquation"]}
{"id": "C90", "title": "A vortex drives nothing through a closed contour", "statement": "The influence of a vortex with a core on a segment is the difference of one potential between the segment's ends, so summed over all segments of a closed contour it vanishes wherever the vortex is: the equations of one body are dependent, and one of them may be replaced by a condition on the circulation.", "quantifier": "every closed contour and every position and core radius of the vortex", "why_tests_cant": "all contours and all four branches of the kernel; a test checks a few shapes with a tolerance", "anchors": ["libvvhd/src/MConvectiveFast.cpp: _2PI_Xi_g, _2PI_Xi_g_near, _2PI_Xi_g_dist"]}
{"id": "C91", "title": "The two forms of the influence on a segment agree", "statement": "The function returning only the circulation part of the influence of a point on a segment and the one returning both parts give the same circulation part.", "quantifier": "every point, segment and core radius", "why_tests_cant": "the branch is chosen by geometry; the wrong branch needs a segment lying in the core of another", "anchors": ["libvvhd/src/MConvectiveFast.cpp: _2PI_Xi_g, _2PI_Xi"]}
{"id": "C92", "title": "No flow through the surface", "statement": "After the circulations are computed, for every segment but the special one of its body, the flow through it of the inflow, the sources, the free vortices, the vortices on all surfaces and the attached vortices and sources of turning bodies equals the flow of its body's own velocity: the fluid does not pass the surface.", "quantifier": "every flow state, set of bodies and segment", "why_tests_cant": "all configurations; an error in one coefficient shows only as a small leak", "anchors": ["libvvhd/src/MConvectiveFast.cpp: fillSlipEquationForSegment, _2PI_A123, NodeInfluence"]}
{"id": "C93", "title": "Force of the fluid on a body", "statement": "The hydrodynamic force computed with the circulations is the friction of the previous step, plus the rate of change of the impulse of the circulation shed less the absorbed, plus the acceleration terms of the displaced fluid; likewise the torque.", "quantifier": "every flow state and body", "why_tests_cant": "all states; each term matters only for some motions", "anchors": ["libvvhd/src/MConvectiveFast.cpp: fillHydroXEquation, fillHydroYEquation, fillHydroOEquation"]}
{"id": "C94", "title": "Isoline levels", "statement": "The levels drawn are exactly vmin, vmin+dv, vmin+2dv, ... up to vmax, each once, and drawing ends for every accepted range.", "quantifier": "every accepted vmin, vmax, dv", "why_tests_cant": "termination and rounding over all ranges", "anchors": ["libvvhd/src/XIsoline.cpp: XIsoline(const XField&, double, double, double)"]}
{"id": "C95", "title": "Isolines end only at the border", "statement": "An isoline of a field without jumps whose values differ from the levels is either closed or ends at the border of the field; no two isolines share an end.", "quantifier": "every field, resolution, set of levels and rounding", "why_tests_cant": "global topology of all fields", "anchors": ["libvvhd/src/XIsoline.cpp: XIsoline, process_rect, commit_segment, merge_lines"]}
{"id": "C96", "title": "A particle taken from a list stays usable", "statement": "A particle obtained from a script list by index refers to that element: reading it gives the current element and assigning to it changes exactly that element, as long as the list still has it.", "quantifier": "every history of list operations between taking and using the particle", "why_tests_cant": "validity depends on reallocation by the library", "anchors": ["utils/vvflow/lua_objlist.cpp: objlist_getindex, objlist_append", "utils/vvflow/lua_tobj.cpp: lua_pushTObj, lua_toTObjx"]}
{"id": "C97", "title": "Vectors and particles given by scripts", "statement": "A vector or particle argument is accepted exactly if it is a value of that type or a table with exactly the right number of numeric elements, and then has these components.", "quantifier": "every script value", "why_tests_cant": "arbitrary values", "anchors": ["utils/vvflow/lua_tvec.cpp: lua_toTVecx", "utils/vvflow/lua_tvec3d.cpp: lua_toTVec3Dx", "utils/vvflow/lua_tobj.cpp: lua_toTObjx"]}
{"id": "C98", "title": "Members of a body in scripts", "statement": "Assigning a member of a body by name and reading it back gives the assigned value; every other member keeps its value; a refused assignment changes nothing.", "quantifier": "every member name, body and value", "why_tests_cant": "independence of all pairs of members", "anchors": ["utils/vvflow/lua_tbody.cpp: tbody_newindex, tbody_getindex, tbody_members, PUSH_MEMBER", "utils/vvflow/getset.cpp"]}
{"id": "C99", "title": "Number of corners of a generated shape", "statement": "A shape generated with a number of segments N has exactly N corners if it is a cylinder, and differs from N by at most one for a half cylinder, two for a parallelogram, three for a whole plate and a rotor; with a spacing each piece has the number of corners nearest to its length over the spacing.", "quantifier": "every valid parameter table", "why_tests_cant": "rounding of several pieces for all real dimensions", "anchors": ["utils/vvflow/gen_cylinder.cpp", "utils/vvflow/gen_plate.cpp", "utils/vvflow/gen_parallelogram.cpp", "utils/vvflow/gen_savonius.cpp"]}
{"id": "C100", "title": "Generated ellipse is an ellipse", "statement": "For every accepted size the generator of ellipses ends, and gives an even number of at least four corners, all on the ellipse with the given half axes and none on its long axis, symmetric about both axes.", "quantifier": "every half axes, spacing and number", "why_tests_cant": "termination and symmetry of an adaptive loop for all real sizes", "anchors": ["utils/vvflow/gen_ellipse.cpp: luavvd_gen_ellipse"]}
{"id": "C101", "title": "Sides of a generated plate are tangent to its end circles", "statement": "Both straight sides of a generated plate lie on the common outer tangents of the two end circles of the whole plate, also if only a part of the plate between start and stop is generated and a gap is left.", "quantifier": "every radii, length, part and gap", "why_tests_cant": "geometry for all real parameters", "anchors": ["utils/vvflow/gen_plate.cpp: luavvd_gen_plate"]}
{"id": "C102", "title": "Where generated bodies slip", "statement": "Generated cylinders, half cylinders, ellipses, parallelograms and rotors do not slip anywhere; a plate slips only at the ends where it is cut; a nozzle does not slip on its walls and slips elsewhere; a box does not slip on its bottom and the rim of its hole and slips elsewhere.", "quantifier": "every valid parameter table", "why_tests_cant": "all real dimensions", "anchors": ["utils/vvflow/gen_plate.cpp", "utils/vvflow/gen_gis.cpp", "utils/vvflow/gen_box.cpp"]}
{"id": "C103", "title": "The plotted window follows the chosen frame", "statement": "With a reference frame bound to the body (both axes or one) or to the fluid, the plotted rectangle and the points where fields are computed are the requested ones displaced by the position of the first body's axis, respectively by the displacement of the fluid; size and resolution do not change.", "quantifier": "every window, frame, and position of body and fluid", "why_tests_cant": "ranges over all positions and frames", "anchors": ["utils/vvplot/vvplot.cpp: main_hdf", "utils/vvplot/optparse.cpp: --ref-xy"]}
{"id": "C104", "title": "Every cell of a computed map is the field at its own node", "statement": "After a velocity, stream function, vorticity or pressure map has been evaluated, the value stored at column i and row j is the value of that field at the point (xmin + i*dxdy, ymin + j*dxdy), each node is computed exactly once, and the map does not depend on the order in which threads take the nodes.", "quantifier": "every mesh, flow and order of nodes", "why_tests_cant": "the order of threads and the size of the mesh are unbounded", "anchors": ["libvvhd/src/XField.cpp", "libvvhd/src/XVelocity.cpp: evaluate", "libvvhd/src/XStreamfunction.cpp: evaluate", "libvvhd/src/XVorticity.cpp: evaluate", "libvvhd/src/XPressure.cpp: evaluate"]}
{"id": "C105", "title": "Computing a field leaves the flow as it was", "statement": "Evaluating a field changes neither the flow it was given nor a later evaluation of another field over the same flow.", "quantifier": "every flow, mesh and pair of successive evaluations", "why_tests_cant": "aliasing between copies of a flow; a test sees it only if it compares a second map with a fresh one", "anchors": ["libvvhd/src/XVorticity.cpp: evaluate", "libvvhd/src/XPressure.cpp: evaluate", "libvvhd/src/MFlowmove.cpp: vortex_shed", "libvvhd/headers/TSpace.hpp: BodyList"]}
{"id": "C106", "title": "Maps in different frames differ by the frame's velocity", "statement": "A velocity map in another reference frame differs from the map in the fixed frame by exactly that frame's velocity, a stream function by the stream function of that uniform stream, a static pressure not at all; letters other than the documented ones are rejected.", "quantifier": "every flow, mesh, frame and letter", "why_tests_cant": "all flows and frames", "anchors": ["libvvhd/src/XVelocity.cpp: evaluate", "libvvhd/src/XStreamfunction.cpp: evaluate", "libvvhd/src/XPressure.cpp: evaluate"]}
{"id": "C107", "title": "The stream function's gradient is the velocity", "statement": "Wherever the stream function is smooth its gradient, turned by a right angle, is the velocity of the flow (stream, vortices, sources, layers of bodies), and it agrees with the velocity map of the same flow.", "quantifier": "every flow and every point off the cuts", "why_tests_cant": "a statement about derivatives at every point", "anchors": ["libvvhd/src/XStreamfunction.cpp: streamfunction, _4pi_psi_g, _2pi_psi_q, _2pi_psi_qatt", "libvvhd/src/XVelocity.cpp: evaluate", "libvvhd/src/MConvectiveFast.cpp: velocity"]}
{"id": "C108", "title": "Velocity close to a moving segment is that of its layer", "statement": "Close to a segment of a moving body the induced velocity is the exact integral over the vortex and source layers, linear along the segment, that replace the body's motion.", "quantifier": "every segment, rigid motion and point close to the segment and not on it", "why_tests_cant": "an integral identity for all real parameters", "anchors": ["libvvhd/src/MConvectiveFast.cpp: SegmentInfluence_linear_source, body_list_influence"]}
{"id": "C109", "title": "The motion of a closed body creates no mass", "statement": "The sources that replace the motion of a closed body add up to zero; the vortices add up to minus twice the angular speed times the area.", "quantifier": "every closed contour and rigid motion", "why_tests_cant": "all polygons", "anchors": ["libvvhd/src/XStreamfunction.cpp: streamfunction", "libvvhd/src/MConvectiveFast.cpp: body_list_influence"]}
{"id": "C110", "title": "Isolines of the stream function follow one continuous branch", "statement": "With the gaps stored beside a stream function map, the corner values used to draw isolines in a cell follow one continuous branch of the stream function along each edge of that cell, and jump around the cell by exactly the strength of the sources inside it.", "quantifier": "every mesh, list of sources and cell without a source on its rim", "why_tests_cant": "branches of a multivalued function for all positions", "anchors": ["libvvhd/src/XStreamfunction.cpp: evaluate (gaps)", "libvvhd/src/XIsoline.cpp: XIsoline"]}
{"id": "C111", "title": "The vorticity map holds the circulation of the vortices", "statement": "Without walls the integral of the vorticity over the plane is the circulation of all vortices up to the documented cut of the bell; far from all vortices and walls it is zero.", "quantifier": "every list of vortices and radii", "why_tests_cant": "an integral over the plane", "anchors": ["libvvhd/src/XVorticity.cpp: vorticity"]}
{"id": "C112", "title": "The pressure map satisfies the unsteady Bernoulli equation", "statement": "With and without bodies the static pressure is minus the rate of change of the potential plus half the difference of squared speeds, where with bodies the layers that fly with the surfaces and the circulation born on them in the step count too; in an undisturbed stream it is zero; and without bodies it does not depend on the velocity of the observer.", "quantifier": "every list of moving vortices and bodies, point and observer", "why_tests_cant": "derivatives and frames for all flows", "anchors": ["libvvhd/src/XPressure.cpp: pressure, K"]}
{"id": "C113", "title": "The extraction tool prints the numbers of the datasets it is asked for", "statement": "Asked for datasets of a results file, the extraction tool prints one line with the names of the columns and then one line per row of the longest dataset. The fields of a line are the numbers of that row, dataset after dataset in the order asked for, each correct to seven digits and readable back by any reader of decimal numbers; below the end of a shorter dataset fields are blank. A script that splits lines at white space finds every column in its place. If a dataset is missing or is not a table, nothing is printed and the exit code is not zero. Asked for a list, it prints the name of every dataset once.", "quantifier": "every file, every list of names, every number including infinities and not-a-number, every row", "why_tests_cant": "digits, exponents and rounding at every magnitude; all shapes of tables and combinations of lengths", "anchors": ["utils/vvxtract/vvxtract.cpp: main, dset_info_t", "libvvhd/src/XField.cpp"]}
{"id": "C114", "title": "The printed information about a file describes the simulation that was saved", "statement": "Asked for information about a saved simulation, the extraction tool prints a paragraph about the file, one with the parameters of the simulation and one per body in order. Every parameter appears once, as an assignment of a script, and its text denotes the saved value: numbers to six digits, times and expressions exactly. The remarks give the number of elements of each list.", "quantifier": "every simulation that can be saved, with any number of bodies, labels and references between bodies", "why_tests_cant": "all values of all parameters, all combinations of bodies, and text read back by an independent reader", "anchors": ["utils/vvxtract/vvxtract.cpp: main", "libvvhd/src/TSpace_load_hdf.cpp", "libvvhd/src/TSpace_save_hdf.cpp"]}
{"id": "C115", "title": "Every vortex counts once in every velocity, and grouping distant vortices costs at most a fifth of each", "statement": "The velocity given to a particle is the sum of the inflow, the sources, the bodies and every vortex of the flow, each vortex exactly once. A vortex acts as smoothed over its radius, or, if it is further away than twice the sides of the particle's group together, as a point vortex with an error of at most a fifth of the velocity it induces itself. The velocity shown by sensors and maps obeys the same rule.", "quantifier": "every set of particles, every tree built on them, every particle, every point, every circulation", "why_tests_cant": "which vortices are grouped depends on the whole arrangement; an error bound has to hold for all arrangements and a vortex counted twice or missed shows up only in some", "anchors": ["libvvhd/src/MConvectiveFast.cpp: velocity, process_all_lists, near_nodes_influence, far_nodes_influence", "libvvhd/src/TSortedTree.cpp"]}
{"id": "C116", "title": "Sensors report the velocity at their positions in every step", "statement": "A file of numbers separated by white space places one sensor for each two numbers, in their order. A run with sensors adds to the output file one line per step, in order of time. The line has the time of the step and, sensor after sensor, the two components of the velocity of the fluid there, computed after the convective velocities of that step and before anything moves, all readable by any reader of decimal numbers and correct to six digits. Without sensors the output file is not touched.", "quantifier": "every text of positions, every number of sensors, every run of the main loop, every velocity including infinities and not-a-number", "why_tests_cant": "all spellings of numbers in the file, all runs and all magnitudes of velocities; order and number of lines over runs of any length", "anchors": ["utils/vvflow/sensors.cpp: loadFile, output", "utils/vvflow/vvflow.cpp: simulate"]}
{"id": "C117", "title": "Files of the old binary format load to what they say", "statement": "Loading a file of format 1.3 gives the simulation that its parts describe: the parameters of the header, every list with its objects in their order, every body with its parameters and its contour, slip and conditions by the codes of the segments. Nothing of the earlier state stays except the sources. The result does not depend on where in the file the parts stand. Files of another format or version are refused.", "quantifier": "every file of the format, every order of the directory, every number of objects, bodies and segments, every earlier state", "why_tests_cant": "all layouts of a binary format, all lengths of lists; no writer of the format is left in the project to produce test files", "anchors": ["libvvhd/src/TSpace_load_v13.cpp", "libvvhd/src/TSpace.cpp: Space::load"]}
{"id": "C118", "title": "Bodies live exactly as long as the script or the list refers to them", "statement": "Whatever bodies a script creates, loads, inserts, erases, mounts on each other and forgets, and whenever the garbage collector runs: a body is destroyed exactly when neither a value of the script nor the list of bodies refers to it, and only once; no call reads or destroys a destroyed body; a call refused with an error changes nothing and leaks nothing; the root of a body is the body it was set to while that one lives and nil afterwards, and does not keep it alive; when the list is empty and all values are collected every body is gone.", "quantifier": "all scripts of any length over the calls that create, load, list, erase, clear, mount, compare, read and collect bodies, with any arguments of the right or the wrong type", "why_tests_cant": "The interleavings of calls, errors and collector runs are unbounded, and a use after free or a leak need not show in a test.", "anchors": ["utils/vvflow/lua_tbody.cpp: pushTBody, checkTBody, tbody_gc, luavvd_setrootbody, luavvd_getrootbody, tbody_newindex, tbody_getindex, tbody_totable, luavvd_load_body", "utils/vvflow/lua_bodylist.cpp: bodylist_insert, bodylist_erase, bodylist_clear, bodylist_getindex", "libvvhd/headers/TSpace.hpp: BodyList", "libvvhd/headers/TBody.hpp: root_body", "libvvhd/src/TSpace.cpp: Space::load"]}
{"id": "C119", "title": "Parameters of the simulation are set to what the script assigns", "statement": "An assignment S.name = value sets the parameter of that name and no other, or is refused with an error and changes nothing. Numbers take every number, the caption every string, the speed at infinity every string that is an expression, gravity a vector or a table of two numbers, times a number of seconds, a pair of integers or the text of a fraction; values of other types are refused. Reading gives back what was assigned. Unknown names, lists and parameters that scripts do not have cannot be assigned; unknown names read as nil. Every name can be read after any assignments.", "quantifier": "all names, all values of any type, all states of the simulation", "why_tests_cant": "Names, values and states are unbounded; that nothing else changes cannot be seen from a sample.", "anchors": ["utils/vvflow/lua_space.cpp: space_members, space_newindex, space_getindex", "utils/vvflow/getset.cpp: luavvd_setdouble, luavvd_setstring, luavvd_setTTime", "utils/vvflow/lua_tvec.cpp: luavvd_setTVec", "utils/vvflow/lua_teval.cpp: luavvd_setTEval"]}
{"id": "C120", "title": "What is derived from a contour is that of the current contour", "statement": "Whatever a script and the simulation do with a body - moving, turning, assigning members, solving, stepping, saving and loading - the length, area, centre, moment of inertia and bounds reported and used are those of a new body made from its current corners, and the velocity of the flow counts every segment that slips, and only those. Turning slip off acts at once. move_r shifts, move_o turns by radians and move_d by degrees about the axis.", "quantifier": "all bodies, all histories of calls of any length, all arguments", "why_tests_cant": "Stale values show only for certain orders of calls, and those are unbounded.", "anchors": ["utils/vvflow/lua_tbody.cpp: luavvd_setslip, tbody_move_r, tbody_move_o, tbody_move_d, tbody_totable, tbody_members", "utils/vvflow/lua_tvec.cpp: tvec_newindex", "libvvhd/src/TBody.cpp: TBody::doUpdateSegments, TBody::doFillProperties, TBody::move", "libvvhd/src/MConvectiveFast.cpp: MConvectiveFast::body_list_influence"]}
{"id": "C121", "title": "The options of the plotting program mean what its usage says", "statement": "A command line of vvplot is taken exactly if every option is one of the usage and its argument has the form and range written there; otherwise the program exits with code 1 (0 for help and version) at the first bad option and plots nothing, and it also exits with code 1 unless exactly two file names follow. Every setting has the value of the last option given for it and its documented default if there is none; options about different topics can be given in any order. At most one field is drawn in colours, the one asked for last. A number is read as the nearest double. In a directory the plot is named after the input file without its directory and extension. Levels and ranges that are taken can be drawn.", "quantifier": "all lists of options with all argument texts, all file names and targets, all rounding functions", "why_tests_cant": "Option lists and argument texts are unbounded, and the property relates all orders of all combinations of options; tests sample a few command lines.", "anchors": ["utils/vvplot/optparse.cpp: opt::parse", "utils/vvplot/vvplot.cpp: namespace opt, main_hdf"]}
{"id": "C122", "title": "A plot shows the layers that were asked for, each with its own data", "statement": "Plotting a saved flow hands gnuplot a script whose command plot draws exactly the layers asked for on the command line, from the map at the bottom to the springs on top, and the file named for each layer is read with the data of that layer and no other. Bodies are drawn as closed contours. The output file contains the picture and nothing else.", "quantifier": "all settings, all flows with any number of bodies of any contours and labels, any order in which the files are kept, any file descriptors, any earlier contents of the output file", "why_tests_cant": "names are replaced by paths one after another by searching the text of the script, so whether a layer gets its data depends on every label, every literal in the script and the order of the files", "anchors": ["utils/vvplot/vvplot.cpp: main_hdf", "utils/vvplot/gnuplotter.cpp: Gnuplotter::exec", "utils/vvplot/gnuplotter.hpp: add, get", "libvvhd/src/TSpace.cpp: get_body_name"]}
{"id": "C123", "title": "A plot kept in an archive is the same plot", "statement": "Saving a plot to an archive and loading it gives the same script and the same files. A plot made from the archive shows the same layers with the same data as the plot made at once.", "quantifier": "all plots with any script and any files, all settings, flows and labels, any order of files", "why_tests_cant": "scripts and data share one list of names, so it depends on the names whether a round trip changes the plot", "anchors": ["utils/vvplot/gnuplotter.cpp: Gnuplotter::save, Gnuplotter::load", "utils/vvplot/vvplot.cpp: main_tar"]}
{"id": "C124", "title": "Command lines mean what the usage says, in any order", "statement": "A command line of vvflow, vvxtract or vvplot that is written according to the usage is taken: letters alone or together, names in full or abbreviated without ambiguity, arguments in the same word or the next, options and other words in any order. The last option about a thing decides; the other words reach the script or the program in their order. Help and version are shown wherever they are asked for. Everything that is taken is written so; all else ends with an error. Arguments of a script are handed to it unchanged.", "quantifier": "all command lines: lists of any number of words of any characters", "why_tests_cant": "words are permuted, letters are joined and names abbreviated, so the number of ways to write one request grows without bound, and each can collide with a name in the table", "anchors": ["utils/vvflow/optparse.cpp: opt::parse", "utils/vvxtract/optparse.cpp: opt::parse", "utils/vvplot/optparse.cpp: opt::parse"]}
{"id": "C125", "title": "The exit code tells whether the simulation was done", "statement": "vvflow ends with code 0 for a file of results only if it was loaded and simulated to its end. An error in a script gives code 8, a bad command line code 1.", "quantifier": "all command lines, all contents of files, all scripts and all results of loading and simulating", "why_tests_cant": "it is about every way in which a run can fail", "anchors": ["utils/vvflow/vvflow.cpp: main, simulate", "utils/vvflow/optparse.cpp: opt::parse"]}
{"id": "C126", "title": "Lists of particles are loaded completely and read back in order", "statement": "In a script, list:load(FILE) adds to a list one object for each three numbers of a text file and list:load_bin(FILE) one for each 24 bytes of a binary file, in the order of the file and after the objects that are in the list already. A file that cannot be opened, or that is not a list of objects, stops the script. list:append adds all given objects or none. list[i], ipairs(list), list:totable() and #list show exactly the objects of the list in order; nothing can be assigned to an entry.", "quantifier": "for all contents of lists, all text files of numbers in any decimal notation and any white space, all binary files, all arguments and indices", "why_tests_cant": "The files, the notation of their numbers, the lists and the indices range over unbounded sets; what happens at the first word that is not a number, or in an incomplete last record, has to be known for every place in every file.", "anchors": ["libvvhd/src/TSpace.cpp: Space::load_list_txt, Space::load_list_bin", "utils/vvflow/lua_objlist.cpp: objlist_append, objlist_load_txt, objlist_load_bin, objlist_totable, objlist_getindex, objlist_getnext"]}
{"id": "C127", "title": "The order of the corners in a file says which side of the contour is fluid", "statement": "The manual says about the file of a body: clockwise order of the points corresponds to the internal flow and counter-clockwise order corresponds to the flow around the body. So for corners of a convex contour in counter-clockwise order the points within the contour belong to the body and the points without are fluid, and the other way round for clockwise order.", "quantifier": "for all convex contours with any number of corners and all points in general position", "why_tests_cant": "Contours and points range over a continuum; a test can only show the answer for chosen points of chosen contours.", "anchors": ["utils/vvflow/vvflow.1.md: load_body", "libvvhd/headers/TBody.hpp: TBody::isInsideValid", "libvvhd/src/TBody.cpp: TBody::load_txt, TBody::isPointInvalid, TBody::isPointInContour, TBody::doFillProperties"]}
{"id": "C128", "title": "Discrepancies of circulation do not add up in a run", "statement": "In a run with a body that has the steady condition, after every step the circulation of the free vortices, twice the area of every body times its angular velocity, the circulation at infinity and what the bodies swallowed in that step add up to zero, up to the weak vortices dropped in that step (at most the threshold for each vortex and segment). The bound does not depend on how many steps were made before.", "quantifier": "all runs of any length, all bodies and vortices, all solutions of the linear system, all threshold values", "why_tests_cant": "A test sees a drift only if it runs long enough; the claim is that the error of a step is forgotten by the next one, for runs of every length.", "anchors": ["utils/vvflow/vvflow.cpp: main loop", "libvvhd/src/MConvectiveFast.cpp: fillInfSteadyEquation, calc_circulation", "libvvhd/src/MFlowmove.cpp: vortex_shed, move_and_clean", "libvvhd/src/TSpace.cpp: zero_forces"]}
{"id": "C129", "title": "Bodies made by the shape generators have the area of the shape asked for, with fluid outside", "statement": "A body made by a shape generator goes round its shape clockwise, so that its area is positive and the flow is around it. The area of a parallelogram is exactly its base times its height; those of the other shapes are the areas of the shapes with their arcs replaced by the chords of their segments (for a cylinder of n segments less than pi R^2 by at most (2/3) pi^3 R^2 / n^2). For a cylinder, points farther from the axis than R are fluid and points nearer than R cos(pi/n) belong to the body.", "quantifier": "All parameters accepted by the generators of cylinders, half cylinders, parallelograms, rotors, plates, jet chambers and boxes, all spacings that lose no piece, and all points.", "why_tests_cant": "A test looks at a few sizes and spacings; the claim is a closed form in all of them, with an arbitrary number of corners, and speaks about every point of the plane.", "anchors": ["utils/vvflow/gen_body.cpp:gen_seg_N", "utils/vvflow/gen_body.cpp:gen_arc_N", "utils/vvflow/gen_cylinder.cpp:luavvd_gen_cylinder", "utils/vvflow/gen_cylinder.cpp:luavvd_gen_semicyl", "utils/vvflow/gen_parallelogram.cpp:luavvd_gen_parallelogram", "utils/vvflow/gen_savonius.cpp:luavvd_gen_savonius", "utils/vvflow/gen_plate.cpp:luavvd_gen_plate", "utils/vvflow/gen_gis.cpp:luavvd_gen_chamber_gpj", "utils/vvflow/gen_box.cpp:luavvd_gen_chamber_box", "libvvhd/src/TBody.cpp:doFillProperties", "libvvhd/src/TBody.cpp:isPointInvalid"]}
{"id": "C130", "title": "The flow does not depend on where the origin of coordinates is", "statement": "If everything in a scene is displaced by one and the same vector, one step of the computation gives the same flow displaced by that vector: the tree and its near and far lists, the particles merged and their radii, velocities of particles and at points, pressure, flow rates, friction and heat flux, the circulations and velocities found by the linear system, the particles shed, removed or stopped, and the motion of bodies. Exceptions: the force on a body whose circulation is not balanced (a Kutta condition) changes by the displacement turned by a right angle times the imbalance over the step; the friction torque is stored about the origin but used about the axis of the body, so its torque (and free rotation) depends on the origin; heat is removed beyond an x counted from the origin.", "quantifier": "every scene, displacement, body with nonzero area or length, tree, solution of the system", "why_tests_cant": "a relation between two runs for all scenes and displacements; tests place bodies at the origin", "anchors": ["libvvhd/src/MFlowmove.cpp: move_and_clean, vortex_shed, heat_shed, heat_crop, streak_shed", "libvvhd/src/MConvectiveFast.cpp: fill_matrix, fillHydroXEquation, fillHydroOEquation, process_all_lists", "libvvhd/src/MDiffusiveFast.cpp: process_vort_list", "libvvhd/src/MEpsilonFast.cpp: CalcEpsilonFast", "libvvhd/src/TSortedTree.cpp: build", "libvvhd/src/TSpace.cpp: calc_forces", "libvvhd/src/XPressure.cpp", "libvvhd/src/XStreamfunction.cpp"]}
{"id": "C131", "title": "Every expression has an interpreter of its own", "statement": "Whatever expressions (speeds of the stream and of holders, torques) are made, copied, assigned, evaluated and destroyed, in any order and any number: each has an interpreter that no other one uses, every interpreter is closed exactly once, and no number of accepted or refused texts exhausts one. What is done with one expression, even one that changes variables, does not change the replies of another. A copy has the text of the original and its value at every time. All constants and functions offered can be used.", "quantifier": "all histories of operations on any number of expressions, all interpreters and all effects of expressions on variables", "why_tests_cant": "A leak of one stack slot per refused text or a shared interpreter shows only in long histories and particular interleavings; a test runs a few of them.", "anchors": ["libvvhd/src/TEval.cpp: TEval::TEval, TEval::~TEval, TEval::operator=, TEval::eval", "libvvhd/headers/TEval.hpp: TEval"]}
{"id": "C132", "title": "Results do not depend on the units", "statement": "Write the same scene in other units of length, time and temperature: multiply every number by the power of the units that its meaning asks for (coordinates by length, circulations by length squared over time, springs by force over length, and so on; the Reynolds number is divided by the unit of circulation). Then the tree, the system of equations and its solutions, velocities of particles, the radii of particles, what is shed, the motion and cleaning, forces, friction, and the maps of velocity, pressure, stream function and vorticity are those of the original in the new units. Where absolute numbers in the code break this, it is shown: the threshold below which particles are dropped is one number for circulations and for heat; merging near bodies, coincident vortices, slow bodies, heat near walls and vorticity maps near walls depend on the units.", "quantifier": "all scenes, all positive units of length, time and temperature, all steps", "why_tests_cant": "A formula with a wrong power of a length gives plausible numbers in a test at unit scale; only changing the units in all terms for all scenes reveals it.", "anchors": ["libvvhd/src/TSpace.cpp: Space::calc_forces", "libvvhd/src/MFlowmove.cpp: MFlowmove::move_and_clean, vortex_shed, heat_shed, streak_shed", "libvvhd/src/MEpsilonFast.cpp: MEpsilonFast::CalcEpsilonFast, epsv", "libvvhd/src/MDiffusiveFast.cpp: process_vort_list, process_heat_list", "libvvhd/src/MConvectiveFast.cpp: MConvectiveFast::calc_circulation, process_all_lists", "libvvhd/src/TSortedTree.cpp: stree::build"]}
{"id": "C133", "title": "Vectors and particles in scripts are views of what they were taken from", "statement": "A value taken from a member of a body, from a corner, from S.gravity or from a list of particles, and a member r or v of such a value, stands for that place: reading it later gives what is there then, writing a member (x, y, r, o, d, g, v) changes that member of that thing and nothing else, whatever other values were taken and in whatever order. Assigning a vector or a table of numbers copies the numbers, so later changes of the source are not seen. A member that does not exist reads as nil and cannot be assigned; a value that does not fit is refused and nothing is changed. The methods give the length, its square and the numbers of the vector at that moment. The angle in degrees (d) and in radians (o) are one number: set in degrees and read back it is the same up to the rounding of four operations.", "quantifier": "all scripts (any number of statements, variables and values), all memories and all layouts in which things do not overlap, all roundings", "why_tests_cant": "A wrong offset or a copy instead of a pointer shows only for particular members after particular sequences of writes; tests try a few members once.", "anchors": ["utils/vvflow/lua_tvec.cpp: tvec_getindex, tvec_newindex, lua_toTVecx, luavvd_setTVec", "utils/vvflow/lua_tvec3d.cpp: tvec3d_getindex, tvec3d_newindex, luavvd_setdegree, luavvd_getdegree, lua_toTVec3Dx", "utils/vvflow/lua_tobj.cpp: tobj_getindex, tobj_newindex", "utils/vvflow/getset.cpp: luavvd_setdouble, luavvd_getdouble"]}
{"id": "C134", "title": "Results do not depend on the number of threads or on how work is shared among them", "statement": "Whatever the number of threads, the schedule and the order in which threads read and write, a parallel loop gives what its iterations give one by one: every velocity after a step is the old one plus inflow, near and far vortices, sources and bodies as they were before the loop; every node of the maps of velocity, stream function, vorticity and pressure has the value of the field there; a transposed matrix is the transposed one and every unknown gets its value. Nothing else is written. No two threads ever access one number at the same time with one of them writing, no loop runs for ever, and no loop gets stuck while the expressions of the inflow have a value. If an expression has no value at the current time, no schedule completes the loop. The gaps of the stream function map are the same up to their order.", "quantifier": "all interleavings of single reads, writes and critical sections of all iterations of every parallel loop; all flows, meshes, bottom nodes, near and far lists, matrices of any size, histories of the expressions", "why_tests_cant": "Interleavings are not under control of a test; a race or a lost update shows once in many runs, and never on one core.", "anchors": ["libvvhd/src/MConvectiveFast.cpp: process_all_lists, velocity", "libvvhd/src/XVelocity.cpp: evaluate", "libvvhd/src/XVorticity.cpp: evaluate, vorticity", "libvvhd/src/XStreamfunction.cpp: evaluate, streamfunction", "libvvhd/src/XPressure.cpp: evaluate, pressure", "libvvhd/src/TMatrix.cpp: transpose, solveUsingInverseMatrix", "libvvhd/src/TEval.cpp: eval"]}
{"id": "C135", "title": "The flow rate between two points is the difference of the stream function", "statement": "The difference of the values that S:XStreamfunction gives at two points is the flow rate between them: what the fluid carries per unit of time across any smooth line from the first point to the second, from the right of the line to the left of it, with the velocity of the stream at infinity, of all vortices, sources and bodies. Around a closed contour the flow rates add up to the strengths of the sources inside.", "quantifier": "all flows (any vortices, sources, closed bodies and motions of bodies), all smooth curves and all straight lines that avoid the singular points, all closed polygons", "why_tests_cant": "it is a statement about an integral along every line in every flow; a test compares a few values and does not meet the lines that cross a branch cut", "anchors": ["libvvhd/src/XStreamfunction.cpp: XStreamfunction::streamfunction, _4pi_psi_g, _2pi_psi_q, _2pi_psi_qatt", "utils/vvflow/lua_space.cpp: space_xstreamfunction", "utils/vvflow/vvflow.1.md: calculate fluid flow rate between two points"]}
{"id": "C136", "title": "Results do not depend on the direction of the axes", "statement": "Describe a scene in axes turned by any angle: positions, speeds, forces, boundaries and the flow at infinity turn, circulations, masses, angles and times stay. Then velocities of particles and of the field are the same vectors, pressure and stream function the same numbers, core radii and mergers the same, the unknowns of the bodies (circulations, hydrodynamic forces and moments, speeds) solve the turned system exactly if they solved the original, forces written to the log are the same vectors, and a step moves, sheds, removes and accounts the same particles. This holds up to the parts of the program that look along the axes: unequal springs and stops along x and y, the bounding box in which the heat layer is looked for, the crop of heat beyond an x, a body mounted on another and displaced from its holder, a point at the exact ordinate of a corner, speeds below the zero test.", "quantifier": "all angles (all unit vectors), all scenes, bodies, particles, points and, for the system, all vectors of unknowns", "why_tests_cant": "A regression test compares one scene in one orientation; a mistake in a sign or in the order of components changes all scenes consistently in that orientation, and only a comparison over all angles tells a rotation from a mixture of components.", "anchors": ["libvvhd/src/MConvectiveFast.cpp: slau, influence", "libvvhd/src/MDiffusiveFast.cpp", "libvvhd/src/MEpsilonFast.cpp", "libvvhd/src/MFlowmove.cpp: move_and_clean", "libvvhd/src/TBody.cpp: move, doFillProperties, isPointInContour", "utils/vvplot: XVorticity, XPressure, XStreamfunction"]}
{"id": "C137", "title": "A point is in a body when the contour goes round it an odd number of times", "statement": "For a contour of any shape (not necessarily convex or simple) and a point not on it and not at the ordinate of a corner, the program takes the point for inside exactly when the total angle by which the line of sight from the point to a runner along the contour turns is an odd multiple of a full turn; for a body whose fluid is inside, exactly when it is an even multiple. The total angle is always a whole number of turns.", "quantifier": "all contours with real corners, all points off the contour and off the ordinates of its corners", "why_tests_cant": "Tests try a few points of a few shapes; the claim compares a crossing count with an angle integral for every polygon.", "anchors": ["libvvhd/src/TBody.cpp: isPointInvalid, isPointInContour"]}
{"id": "C138", "title": "The order of bodies and particles in the lists does not matter", "statement": "Two scenes that differ only in the order in which bodies and particles were added give the same flow: the same velocities, the same circulations, forces and speeds of the bodies, the same motion, the same removed vortices, the same stop and the same shed vortices. This holds for the system of equations if the circulations were in balance before the step or the first body with a steady condition stays the first; otherwise the first body of the list takes up all the circulation at infinity. It holds for the motion if no two stops are reached at the same moment, no vortex is inside two bodies and there is no heat. It fails for the merging of vortices, which goes along the list.", "quantifier": "all scenes, all permutations of bodies (with the numbers of their roots changed accordingly) and of vortices, heat, sources and ink, all parameters, over every linearly ordered field", "why_tests_cant": "There are factorially many orders of a list; a test compares two of them for one scene, and rounding hides whether a difference comes from the order of summation or from an asymmetry of the algorithm.", "anchors": ["libvvhd/src/MConvectiveFast.cpp: calc_circulation, fillInfSteadyEquationForSegment, process_all_lists", "libvvhd/src/MDiffusiveFast.cpp: process_vort_list", "libvvhd/src/MFlowmove.cpp: move_and_clean, vortex_shed, heat_shed", "libvvhd/src/TSpace.cpp: calc_forces", "libvvhd/src/MEpsilonFast.cpp: CalcEpsilonFast"]}
{"id": "C139", "title": "The phases of a step fit together", "statement": "In a run, every step hands to each phase what that phase needs: the circulations found in a step satisfy all equations for the bodies and vortices of that step, also when the matrix is inverted only once; after every step the circulations of vortices, turning bodies, infinity and what bodies swallowed add up to zero up to the threshold for weak vortices; nothing is inside a body; no fluid passes through a segment other than the one in each body whose equation is given up for the total circulation; cores are never smaller than a third of the shortest segment; bodies held still never move; a step adds at most one vortex for a segment; every vortex is carried by all vortices, each counted once, directly or in the centre of its group; without bodies and viscosity a step with few particles is an Euler step of the equations of smoothed point vortices.", "quantifier": "every run of any length from any state at its beginning: any bodies that all are held still or of which one moves or has a spring, any vortices, heat, ink, sources, inflow, any schedule of threads, any solver, any hash that does not give 0 for the matrix of bodies held still", "why_tests_cant": "Each phase can be tested alone against what its author believes the other phases do; that the beliefs fit in every step of every run is a statement about all reachable states.", "anchors": ["utils/vvflow/vvflow.cpp: simulate", "libvvhd/src/TSortedTree.cpp: build", "libvvhd/src/MConvectiveFast.cpp: process_all_lists, calc_circulation", "libvvhd/src/MEpsilonFast.cpp: CalcEpsilonFast", "libvvhd/src/MDiffusiveFast.cpp: process_vort_list, process_heat_list", "libvvhd/src/MFlowmove.cpp: move_and_clean, vortex_shed, heat_shed, streak_shed, heat_crop"]}
{"id": "C140", "title": "Ink does not influence the flow", "statement": "Ink is released to be looked at: a run with sources of ink gives the same vortices (and the same heat) as the same run without them, at every step. The same holds for heat with respect to vortices.", "quantifier": "all flows, all sources and particles of ink, all numbers of steps", "why_tests_cant": "A comparison of two runs shows nothing in small flows, where all particles are in one node of the tree; whether it holds depends on the number and positions of the particles, through the tree.", "anchors": ["libvvhd/src/TSortedTree.cpp: stree::build", "libvvhd/src/TSortedTree.cpp: TSortedNode::Stretch", "libvvhd/src/MEpsilonFast.cpp: MEpsilonFast::CalcEpsilonFast", "libvvhd/src/MConvectiveFast.cpp: MConvectiveFast::process_all_lists", "utils/vvflow/vvflow.cpp: main"]}
{"id": "C141", "title": "What a run computes does not depend on the machine", "statement": "Two runs of one scene that differ only in what the program does not control (how iterations of parallel loops are given to threads and interleaved, the contents of uninitialised memory, the bytes of doubles that hashes of matrices are made of, which of the possible solutions LAPACK finds, and whether a kept inverse is used again) compute the same flow in every step both come to, provided the direct solver of one of the machines returns a solution only when there is no other, as LAPACK does.  Without this it is enough that the systems have one solution each; for bodies held still, that their one matrix is not singular.", "quantifier": "all scenes with any number of bodies, vortices, heat and ink, numbers of steps, pairs of machines, contents of the memory of the solver; exact numbers", "why_tests_cant": "The orders of threads and contents of memory are not under the control of a test, and runs have any length.", "anchors": ["utils/vvflow/vvflow.cpp:200-266", "libvvhd/src/MConvectiveFast.cpp:218-273 calc_circulation", "libvvhd/src/MConvectiveFast.cpp:882-1004 fill_matrix", "libvvhd/src/TMatrix.cpp solveUsingInverseMatrix, solveUsingLapack, fillInverseMatrix"]}
{"id": "C142", "title": "What a step takes in groups is far away", "statement": "At every segment and particle each vortex of the flow acts once: by itself, or in a group through the centres of its positive and its other vortices. A vortex of a group is more than twice as far from the segment or particle as from any vortex of its group. The equations of the solver and the velocities of particles both obey this. The smallest cells the flow is divided into are smaller than 100 average segment lengths both ways, and have a side up to 5 such lengths or less than 16 objects of each kind; cells that are like that are not divided further.", "quantifier": "every flow with bodies and particles, every segment, every particle, every average segment length", "why_tests_cant": "the grouping depends on the whole arrangement of segments and particles, and the bound has to hold for every pair", "anchors": ["utils/vvflow/vvflow.cpp: main (tr)", "libvvhd/src/TSortedTree.cpp: DivideNode, FindNearNodes, findNode", "libvvhd/src/MConvectiveFast.cpp: fillSlipEquationForSegment, fillZeroEquationForSegment, process_all_lists"]}
{"id": "C143", "title": "The number that stands for nothing found yet does not matter", "statement": "The program looks for the nearest segment, the nearest vortices and the borders of a cell by starting from a very large number. As long as the flow stays within a distance m of the axes, every such number above 8 m^2 gives the same run: the same positions, circulations, radii and forces after each number of steps, and the same failure if there is one. Without bodies the same holds for the large number used as the greatest size of a cell.", "quantifier": "every flow, every number of steps, every bound m, all starting numbers above 8 m^2 (m for the borders of cells, 2 m for the size of cells)", "why_tests_cant": "a test runs with one starting number; that no comparison with it ever decides anything has to hold at every search of every step", "anchors": ["libvvhd/src/TSortedTree.cpp: Stretch, DivideNode", "libvvhd/src/MEpsilonFast.cpp: epsv, epsh, nearestBodySegment", "libvvhd/src/TBody.cpp: isPointInContour", "utils/vvflow/vvflow.cpp: main"]}
{"id": "C144", "title": "The program as a whole: what a run writes, and that it ends", "statement": "A run of the program that ends well has made some number of whole steps (circulations, release of heat, vortices and ink, forces, tree, radii, convection, diffusion, motion), each beginning with the state the one before left; the test of the loop held before each and fails at the end. What it wrote are, in the order of the steps, the state of each step after circulations and heat if a snapshot was due then, and the row of the state with the forces. If the clock keeps in range and the steps are possible, the run ends after exactly the steps before the finish time plus half a step, its rows are at t0 + k dt and its snapshots at those of them that are not negative and multiples of the save period. A run without bodies and viscosity does end, whatever the vortices do, as long as they stay within the range of numbers. A flow without bodies goes on from any snapshot exactly as the run it is from.", "quantifier": "all flows, settings, numbers of steps, schedules, functions written to the log; rounding of times by any function that is as good as double", "why_tests_cant": "a test runs a few cases for a few steps; whether the schedule, the step and the state saved fit together for every run, and whether every run ends, is a statement about all of them", "anchors": ["utils/vvflow/vvflow.cpp: main loop 214-266", "libvvhd/src/TSpace.cpp: save, load", "libvvhd/src/MFlowmove.cpp", "libvvhd/src/MEpsilonFast.cpp: CalcEpsilonFast"]}
{"id": "C145", "title": "Logged profiles are those of each step, and logging them changes nothing else", "statement": "In a run of the simulation program with the option to save profiles, the pressure logged for a segment at a step is the circulation that left the segments of the body up to this one in that step, divided by the time step, and the friction logged is what was collected on the segment for that step, divided by pi times the Reynolds number: nothing is carried over from the steps logged before. The option does not influence the simulation: the run with it ends where the run without it does and in the same state, its snapshots load as the same states, and the time, forces, positions and speeds in the step log have the same rows, also when an old log is continued.", "quantifier": "all settings, all start states of a process (with any number of bodies that may move, springs, heat, ink, viscosity), all finish times and save periods, any number of steps; all logs of earlier runs", "why_tests_cant": "Saving profiles resets sums in the state between two phases of every step; that no later phase of any step reads them, and that the sums hold exactly one step's share, concerns every phase and all steps of all runs.", "anchors": ["libvvhd/src/MStepdata.cpp: Stepdata::write, Stepdata::Stepdata", "libvvhd/src/TSpace.cpp: Space::calc_forces, Space::zero_forces", "utils/vvflow/vvflow.cpp: main", "utils/vvflow/optparse.cpp: --profile"]}
{"id": "C146", "title": "A flow does not depend on how fast the observer moves (Galilean invariance)", "statement": "If one velocity is added to the stream at infinity and to the prescribed velocity of every body that is not mounted on another, a run gives the same flow, seen by an observer who moves. Without bodies every vortex and every ink particle keeps its circulation, radius and place in the list and is displaced by that velocity times the time passed. With bodies the circulations, forces, torques and holder forces found in a step are the same and the velocities of the bodies change by that velocity; the velocity of the fluid outside the bodies changes by it up to the error of taking far segments as points. Both fail in general: a damper works against the velocity over the ground, and a towed body drags fluid along by the error of that approximation.", "quantifier": "all velocities of the observer, all scenes of vortices and ink and any number of steps; all scenes with bodies and all solutions of their equations; all points outside closed bodies", "why_tests_cant": "A test compares two runs at a few speeds; that nothing in the tree, the radii, the diffusion, the equations of the bodies or the cleaning reads an absolute velocity has to hold for every scene, every speed and every number of steps.", "anchors": ["libvvhd/src/MConvectiveFast.cpp: body_list_influence, fillSlipEquationForSegment, fillHookeXEquation, fillSpeedXEquation", "libvvhd/src/MFlowmove.cpp: move_and_clean", "utils/vvflow/vvflow.cpp: main"]}
{"id": "C147", "title": "Ink moves with the velocity that a sensor at its place shows", "statement": "A sensor placed where a drop of ink is shows, in that step, the velocity with which the drop is carried on: after the step the drop is at its old place plus that velocity times the time step (shortened if a body meets a stop, by the same time for all drops). While everything in the flow fits in one node of the tree this is exact. With far groups of vortices the two differ, since particles get an expansion about the middle of their node and sensors do not; the difference is at most a twentieth of the sum of the speeds of those vortices at the place.", "quantifier": "all states reached by any number of steps of a run, all settings, bodies, vortices, sources and ink, and every drop of ink that is there after the step", "why_tests_cant": "the two velocities come from different code (MConvectiveFast::velocity and process_all_lists); their difference depends on how the tree is divided and on where in its node a drop is, and is small, so a comparison at sample points neither shows that it is always small nor where it is nil", "anchors": ["libvvhd/src/MConvectiveFast.cpp: MConvectiveFast::velocity, process_all_lists, far_nodes_influence", "utils/vvflow/sensors.cpp: sensors::output", "utils/vvflow/vvflow.cpp: main", "libvvhd/src/MFlowmove.cpp: move_and_clean", "libvvhd/src/TSortedTree.cpp: stree::findNode"]}
{"id": "C148", "title": "Fluid at rest around bodies held still stays at rest", "statement": "Start a run with bodies held still, no vortices, no sources and no stream. After any number of steps, whatever viscosity, heat, gravity and ink there are, there is not one vortex, the bodies are where they were, and ink lies where it was put or released; only ink inside a body is removed. In every step the logged forces are these: nothing from the fluid, neither pressure nor friction, and at the holder the weight of the body less that of the fluid it displaces, with its moment about the axis.", "quantifier": "all numbers of steps, all shapes and numbers of bodies held still, all time steps, viscosities, gravity, heat and ink, all schedules of threads and all solvers that solve regular systems only", "why_tests_cant": "a test shows rest for one body and a few steps; that nothing builds up (previous velocities and friction, absorbed circulation, an inverse kept from step to step) in any number of steps and for any shapes is an invariant of the whole loop", "anchors": ["utils/vvflow/vvflow.cpp: main", "libvvhd/src/MFlowmove.cpp: vortex_shed, heat_shed, streak_shed, move_and_clean", "libvvhd/src/MConvectiveFast.cpp: calc_circulation, process_all_lists", "libvvhd/src/MDiffusiveFast.cpp: process_vort_list", "libvvhd/src/TSpace.cpp: Space::calc_forces, Space::zero_forces", "libvvhd/src/TSortedTree.cpp: build"]}
{"id": "C149", "title": "The mirror image of a flow develops as the mirror image", "statement": "Start from the mirror image of a flow without bodies (ordinates and circulations change sign, the stream is mirrored, heat and sources keep their strength). Then every step gives the mirror image of what it gives for the flow itself: the same particles with the same radii and mergers at mirrored places. Neither the merging of vortices, nor diffusion, nor the search for neighbours prefers one direction of rotation. Exact in this sense while all particles are in one node of the tree; a particle exactly where a node is divided belongs to the same side in the flow and in its image, and then the results are not images of one another.", "quantifier": "all flows of vortices, heat and sources in all streams, with and without viscosity, any number of steps", "why_tests_cant": "A test compares one symmetric case within a tolerance; an error that favours one sign of circulation (a comparison without absolute values, a sign lost in a product) can be small or appear only when certain vortices meet, and must be excluded for all arrangements.", "anchors": ["libvvhd/src/MEpsilonFast.cpp: epsv, MergeVortexes", "libvvhd/src/MDiffusiveFast.cpp: vortex_influence, process_vort_list", "libvvhd/src/MConvectiveFast.cpp: biot_savart, sink_list_influence", "libvvhd/src/TSortedTree.cpp: DivideNode"]}
{"id": "C150", "title": "A step can be solved exactly if its equations are not singular", "statement": "At any moment of a run, and whatever the memory and the interleaving of threads, the step that finds circulations, velocities of bodies and forces ends normally if the equations of the bodies have only the zero solution when nothing drives them.  If they have another one, as for two bodies at one place, the program ends with a message; it never goes on with numbers that are not a solution, and never ends in another way.", "quantifier": "all scenes, all histories of steps with the same bodies, all schedules of threads, all contents of uninitialised memory; a library that solves and inverts whatever is not singular and nothing else", "why_tests_cant": "a test runs scenes that work; that no scene with solvable equations is rejected, and none with singular equations is accepted, is about all scenes and all earlier steps", "anchors": ["libvvhd/src/MConvectiveFast.cpp: calc_circulation, fill_matrix", "libvvhd/src/TMatrix.cpp: Matrix::solveUsingInverseMatrix, FillInverseMatrix"]}
{"id": "C151", "title": "What can stop a run", "statement": "A run takes as many steps as asked for, unless in some step the equations of the bodies are singular, or a particle, a segment or a place where a segment releases particles is farther away than the largest number, or a body on a spring mounted on another body has been carried beyond its stops, or, with viscosity, a vortex or heat particle is at the very middle of a segment or has no positive radius, or the walls near a heat particle act on it with the sign opposite to its own.  Nothing else stops it: not the tree, not the solver whatever it did before, not the release of vortices, heat and ink, not the clock, and not the motion.  If no body with a spring is mounted on another one, being within the stops at the start is enough.  If all bodies are held still, one matrix decides for all steps.", "quantifier": "all numbers of steps, all scenes with any bodies, none of which keeps a temperature or is mounted on itself through others; times with a common denominator up to 2^31; all schedules of threads and contents of memory; a library that solves and inverts whatever is not singular", "why_tests_cant": "a test runs some scenes for some steps; that a run cannot get stuck in any later step for another reason is about all scenes and all steps", "anchors": ["utils/vvflow/vvflow.cpp: simulate", "libvvhd/src/MConvectiveFast.cpp: calc_circulation", "libvvhd/src/MFlowmove.cpp: move_and_clean, heat_shed, vortex_shed, streak_shed", "libvvhd/src/TSortedTree.cpp: build", "libvvhd/headers/TTime.hpp: TTime::add, TTime::divisibleBy", "libvvhd/src/MDiffusiveFast.cpp: process_vort_list, process_heat_list"]}
{"id": "C152", "title": "Contours that pass a point twice, and corners repeated in a file", "statement": "A contour read from a file without error either can be used or is one of the following.  If it passes a point twice and the two segments that begin there are of equal length (a plate without thickness drawn there and back), the equations of a step are singular and a step that solves them directly ends with the error message, unless one of the two segments carries the Kutta condition.  The same holds if two bodies with Kutta conditions, held and not mounted, have such a point in common.  If a corner is repeated at once, or the first corner is repeated at the end of the file, the file is read without error but an influence between segments is not a number; otherwise all influences between the segments of the body are numbers.", "quantifier": "all scenes with any bodies, vortices and motion, all pairs of segments, any moment of a run, any order of filling; all files of corners", "why_tests_cant": "Which contours give singular equations depends on the whole matrix, of any size; a test solves a few scenes.", "anchors": ["libvvhd/src/MConvectiveFast.cpp: _2PI_Xi_g, fillSlipEquationForSegment, fillHydroXEquation, calc_circulation", "libvvhd/src/TBody.cpp: load_txt, doUpdateSegments"]}
{"id": "C153", "title": "The equations and the velocity at a point are made of numbers", "statement": "If all segments have a length, the time step is positive, vortices have radii that are not negative, no centre of vorticity of a far cell lies at an end of a segment and no source of strength zero lies at the middle of one, then no division by zero, no logarithm of zero or of a negative number and no root of a negative number occurs while the equations for the circulations are written, and their values are those of the exact formulas. In a step no far centre lies at an end of a segment that shares its bottom cell of the tree with anything a quarter of its length away. In a step with bodies whose segments have a length, at the place of every particle and every segment the divisors of the near vortices, of the far groups and of the sources (unless a source of strength zero is there) are positive. Likewise no such operation occurs in computing the velocity asked for at a point if vortices and slipping segments have radii, no far centre and no source of strength zero lies at the point, and the point is no corner of a body that moves. At a corner of a moving body, and at a source of strength zero, the velocity is not a number.", "quantifier": "for all bodies, vortices, sources, near and far lists, and all points", "why_tests_cant": "whether some division or logarithm is undefined depends on coincidences of positions that a finite set of runs does not reach", "anchors": ["libvvhd/src/MConvectiveFast.cpp: fillSlipEquationForSegment", "libvvhd/src/MConvectiveFast.cpp: NodeInfluence", "libvvhd/src/MConvectiveFast.cpp: _2PI_A3", "libvvhd/src/MConvectiveFast.cpp: velocity", "libvvhd/src/MConvectiveFast.cpp: SegmentInfluence_linear_source", "libvvhd/src/MConvectiveFast.cpp: sink_list_influence"]}
{"id": "C154", "title": "Where the stream function and the pressure are numbers", "statement": "The stream function asked for at a point is a number, that of its formula, everywhere if the first body has segments with a length, and otherwise exactly at the points where no vortex and no middle of a segment lies. A value of its map is a number if the first body has such segments and the near vortices have radii, and the radii prepared for the map are positive. The pressure at a point is a number, that of its formula, exactly where no vortex and no middle of a segment lies and the velocity is a number.", "quantifier": "for all bodies, vortices, sources, frames and all points", "why_tests_cant": "a map has a value that is not a number only if one of its nodes meets a vortex or a middle of a segment, which no chosen mesh need do", "anchors": ["libvvhd/src/XStreamfunction.cpp: XStreamfunction::streamfunction", "libvvhd/src/XPressure.cpp: XPressure::pressure", "libvvhd/headers/TSpace.hpp: average_segment_length"]}
{"id": "C155", "title": "Cells of the sorted flow are near each other mutually and do not overlap", "statement": "When the flow is sorted into cells (to find neighbours for the radii, for diffusion and for the fast sum of velocities), which cells are looked at directly for a given cell depends on the two cells only: it is every cell whose rectangle is not apart from the given one by the far criterion, in the order of the cells, no matter which larger groups the search went through.  Hence the relation is mutual: a particle is looked at directly for another one exactly when the other one is for it.  The rectangles of different cells have no point in common.", "quantifier": "All lists of segments, vortices, heat and streak particles that are not all empty; all sizes of cells and all far criteria of at least one; exact arithmetic.", "why_tests_cant": "Whether a larger group is taken instead of a cell depends on the whole hierarchy above the two cells; an asymmetry would only show for particular arrangements at the border of the criterion.", "anchors": ["libvvhd/src/TSortedTree.cpp: TSortedNode::FindNearNodes, TSortedNode::DivideNode, TSortedNode::Stretch", "libvvhd/headers/TSortedTree.hpp"]}
{"id": "C156", "title": "The layers of vvplot that show the tree show cells that sort the flow", "statement": "`vvplot --ttree-bottom-nodes` draws rectangles such that every segment and particle of the flow is in exactly one of them, every side of a rectangle has a particle or segment on it, and no two rectangles have a point in common.  `--ttree-near-nodes` draws a line between the centres of two cells exactly when they are not apart by the far criterion of eight; each such line is drawn in both directions, and each cell has one to itself.  `--ttree-find-node` draws a line from every fourth node of the mesh in both directions to the centre of a cell, to the cell that holds it when a particle is at the node.  The cells are the groups that are smaller than twenty average lengths of segments both ways and have a side up to ten of them or less than sixteen objects of each kind.", "quantifier": "All flows with at least one segment or particle, all average lengths of segments, all meshes, any conversion to float; exact arithmetic before it.", "why_tests_cant": "The picture has to be right for every flow; tests look at pictures of a few.", "anchors": ["utils/vvplot/vvplot.cpp: ttree_bottom_nodes, ttree_near_nodes, ttree_find_node", "libvvhd/src/TSortedTree.cpp: stree::build, stree::findNode, stree::getBottomNodes"]}
{"id": "C157", "title": "The window and the colours of a plot are what was asked for", "statement": "The window of a picture is the one asked for, moved by where the marker of the fluid or the axis of the first body is, so that what it follows stays at its place in a series of pictures; maps fill it from the lower left corner to the right side and to or less than one step above the upper side.  The colour bar is labelled with the range of the colours.  The vorticity is shown on a range symmetric about zero with white at zero, and dots of vortices have the colours of the ends of that palette; a pressure on the default range and a velocity are shown so that each stop of the palette is at its own value.  Palettes ascend, ranges are not empty.  The command line is kept as a comment in the script.", "quantifier": "All windows, positions, frames, resolutions, ranges given or not, maps and command lines; exact arithmetic.", "why_tests_cant": "Ranges are taken from the field when they are not given, so whether the script is accepted depends on the flow.", "anchors": ["utils/vvplot/vvplot.cpp: main_hdf", "utils/vvplot/optparse.cpp: parse"]}
{"id": "C158", "title": "The scripts for films and quick plots do what they are asked for", "statement": "`vvencode MASK OUTPUT` encodes the pictures of the mask into the output for any number of arguments from two on, and shows the usage for fewer.  `gpquick` makes a picture exactly when a file is given and otherwise prints the script; the script has one command for the size, the file, each range that is given and the columns, lines unless only points are asked for, points if they are, and the grid of the axis that is named.", "quantifier": "All lists of arguments of any length; all options, names, ranges, sizes and columns.", "why_tests_cant": "The numbers of arguments that are refused are those whose first digit is one, at any length; texts are arbitrary.", "anchors": ["utils/scripts/vvencode", "utils/scripts/gpquick: main"]}
