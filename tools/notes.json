{
 "C01": "Exact whenever timescales are equal or their lcm is at most 2^31 and the result fits; the counterexample is outside that guard (truncated lcm), i.e. outside the property's own representability condition.",
 "C02": "Exact divisibility under the representability guard; counterexample shows the guard is needed.",
 "C03": "lcm always terminates; no trap under the guard; a trap exists otherwise (counterexample).",
 "C04": "Exact arithmetic only; on binary64 the claim is false (0.29 becomes 28/100), and non-decimal numbers above 2.147 overflow.",
 "C05": "All-or-nothing proved for every value; strings and tables exact in range; false for tables with integers beyond 32 bits and for negative denominators in strings.",
 "C06": "For every rounding of numbers with a relative error of at most 2^-53 (double is one: near_rnd64). The times of the run must be representable by the clock (C03 shows what happens otherwise); the phases of a step are parameters.",
 "C07": "For every rounding with a relative error of at most 2^-53, as in C06. C07_steps: a step closer to the end than 2^-51 of it may be missing or added; the counterexample is a step missing in double arithmetic. C07_finish: exact when the finish time is near that of a step. The clock must keep in range.",
 "C08": "Holds for captions of at most 41 characters without percent signs. False for longer captions (C08_counterexample, C08_long_caption) and undefined with percent signs (C08_percent).",
 "C09": "A log is a list of rows of each dataset; the HDF5 library is a parameter.",
 "C10": "False in three ways (counterexamples): float times, a crash before the row is written, a run without profiles. Otherwise proved, including a crash that leaves any part of the unflushed rows.",
 "C100": "Over the reals.",
 "C101": "Over the reals.",
 "C102": "Over the reals.",
 "C103": "A body frame without bodies is undefined (counterexample).",
 "C104": "The tree, the test for points inside bodies and the distances to walls are parameters (Engine). Exact arithmetic; map values are not rounded to float.",
 "C105": "Velocity and stream function in full. Vorticity and pressure maps add the circulation of the segments to the caller's bodies (shared between copies), so that a second pressure map differs: exact amount in C105_pressure_partial.",
 "C106": "In full for the first evaluation; a second one after choosing another frame changes nothing, and a body frame without bodies is undefined.",
 "C107": "The stream function is proved to have the velocity of the flow as derivative. The velocity map agrees without bodies and sources; with bodies it lacks the circulation of segments without slip (counterexample).",
 "C108": "Exact for bodies that do not turn; for every turning body there is an excess 2 o dl per near segment (a wrong sign in the code).",
 "C109": "Exact arithmetic, all closed contours.",
 "C11": "Proved for flows without bodies, for the whole program (C11_program_partial) with the tree, radii, convection and diffusion as modelled. False with heated bodies (heat is released twice) and with bodies in a flow with vortices (radii are not saved).",
 "C110": "Proved unless a source is to the right of the window (counterexample). Node numbers below 2^16; gaps are not rounded to float.",
 "C111": "False at walls (one half without any vorticity) and for a lone vortex without bodies (not drawn).",
 "C112": "Bernoulli with and without bodies (C112_bodies, C112_birth). Independence of the observer is proved without bodies and without smoothing (counterexample with smoothing).",
 "C12": "Holds for texts that do not tell 0 from -0; counterexample: 1/t.",
 "C13": "The Lua interpreter is a parameter.",
 "C14": "Exact condition in C14_exact; counterexamples for exchanged unknowns and for a matrix that shrinks.",
 "C15": "Direct mode in full; with a stored inverse as long as the 32-bit hash confuses no two matrices (C16).",
 "C16": "Needs that the hash confuses no two matrices and that the size does not change; four counterexamples, one with two concrete colliding matrices. For bodies that stay where they are the hash of their one matrix must only not be 0 (`C16_resting_partial`).",
 "C17": "All list lengths; pointers are modelled as addresses.",
 "C18": "All assignments of threads.",
 "C19": "All scenes.",
 "C20": "Unconditional while some body moves or may move, in the first step and in collisions (`_direct`); with the stored inverse it needs the condition on hashes of C16.",
 "C21": "False for bodies that move by less than the threshold; proved when all bodies are where they were.",
 "C22": "False for two springs: the collision is forgotten (C22_forgotten, for every such scene). Proved for one spring.",
 "C23": "All lists and orders of the parallel build.",
 "C24": "Needs distinct bounds as stated.",
 "C25": "All trees built by the code.",
 "C26": "All trees built by the code.",
 "C27": "Exact arithmetic.",
 "C28": "Exact arithmetic; boxes are attained.",
 "C29": "Proved in exact arithmetic and for every rounding whose midpoints separate different coordinates; binary64 does not (counterexample).",
 "C30": "Any number of rebuilds.",
 "C31": "Exact arithmetic.",
 "C32": "Exact arithmetic.",
 "C33": "Exact arithmetic.",
 "C34": "All lists.",
 "C35": "Exact arithmetic.",
 "C36": "Holds when nothing changes the heat list between the move and the shedding; in the program's own loop the list is cropped (and sorted by the tree) in between, and the counterexamples show the wrong particle renewed and an access beyond the list.",
 "C37": "Inherits the representability guard of C02.",
 "C38": "Holds for bodies without root that start within their limits; counterexamples for a mounted body and for a body that starts beyond its limit (negative step).",
 "C39": "Exact arithmetic.",
 "C40": "Holds when roots are declared before use; a body made its own root makes the move endless (counterexample).",
 "C41": "Exact arithmetic.",
 "C42": "Radius of a particle at its visit: proved for vortices, heat and for particles found through the tree. False after merges of the same pass (C42_merge_counterexample): radii computed before a neighbour is merged are not recomputed.",
 "C43": "Conservation proved for every pass; the number returned counts merges except that a pair cancelling exactly is counted but leaves two vanished particles (C43_count_counterexample).",
 "C44": "The search among near nodes and the fall-back search when no near node has segments; C44_overrun: the fall-back search advances its iterator by ten without checking the end of the list.",
 "C45": "All lists.",
 "C46": "Exact arithmetic; the centre of mass of a body of zero area needs a non-zero length (the code divides by it).",
 "C47": "All histories.",
 "C48": "Holds for points at no corner's exact ordinate; counterexample at the tip of a rhombus.",
 "C49": "Exact arithmetic.",
 "C50": "Exact arithmetic.",
 "C51": "False after a move (the layer is cached once); holds before the first query and while the body does not move.",
 "C52": "The Lua interpreter is a parameter.",
 "C53": "The HDF5 library is a parameter.",
 "C54": "Up to a hundred bodies; the last of 101 is loaded as the twelfth.",
 "C55": "The HDF5 library is a parameter.",
 "C56": "All parameters of the simulation and of the bodies, the segments, and all lists but the sources, which are appended to what was there (counterexample).",
 "C57": "All values.",
 "C58": "Values, origin and resolution in full; the spacing only if the neighbours of the origin are floats (two counterexamples).",
 "C59": "Exactly which strings are accepted, refused or read beyond the end. False for uneven grids and for one row.",
 "C60": "Minimum and maximum in full; percentiles whenever the rank is not zero, else outside the array (counterexample).",
 "C61": "Any rounding.",
 "C62": "In full when no corner equals the level; false at ties.",
 "C63": "Everything but the index INT64_MIN, which is undefined.",
 "C64": "Proved for valid arguments; an invalid one leaves the earlier ones appended; own elements of a full list are read after being freed.",
 "C65": "Acceptance and refusal exactly characterised for every generator. A table can be used once only, and 2^63 segments pass the test (counterexamples).",
 "C66": "Proved for all shapes; the generators accept a parallelogram without angle and a plate without tangents (counterexamples).",
 "C67": "Proved for requests whose pixel numbers fit an int; counterexamples: too large, height ignored, empty image.",
 "C68": "Exact arithmetic; columns as numbers.",
 "C69": "Limits of zero are ignored (counterexample). Exact arithmetic.",
 "C70": "Limits of zero are ignored; a sign change at a limit may be missed or reported outside (counterexamples).",
 "C71": "Proved for even spans; for odd ones, and so by default, the amplitude printed is zero (counterexample for all data).",
 "C72": "Columns as numbers.",
 "C73": "Exact arithmetic; the divisors Re, pi, dt and segment lengths are non-zero by hypothesis.",
 "C74": "Self velocity, impulse and moment of any group with equal radii; C74_radii_counterexample shows that equal radii are needed.",
 "C75": "Vortices: finite and directed unless the vortex is exactly at the middle of a near segment (C75_middle_counterexample: NaN). Heat: finite when the wall sum has the sign of the particle; otherwise the two terms of the denominator may cancel (C75_heat_counterexample).",
 "C76": "False for bodies of positive area: the box and disc of the body, not of the layer, reject the point.",
 "C77": "False for mixed files: the flag of the previous line is kept.",
 "C78": "Holds for points at no corner's exact ordinate; counterexample in a notch between two tips.",
 "C79": "Exact arithmetic.",
 "C80": "Exact arithmetic.",
 "C81": "Exact arithmetic.",
 "C82": "Exact arithmetic.",
 "C83": "Exact arithmetic.",
 "C84": "Exact arithmetic.",
 "C85": "Exact arithmetic; bodies at rest (the velocity of moving bodies is not modelled).",
 "C86": "Exact arithmetic.",
 "C87": "Exact arithmetic.",
 "C88": "Unconditional while some body moves or may move, in the first step and in collisions (`_direct`); with the stored inverse it needs the condition on hashes of C16; a body that is its own root is excluded.",
 "C89": "The vertical velocity has an excess when the root turns and the body is displaced (C89_exact); counterexample.",
 "C90": "Over the reals, log and atan2 being the real functions.",
 "C91": "Both forms agree unless both ends are within the core; there they have opposite signs.",
 "C92": "Unconditional while some body moves or may move, in the first step and in collisions (`_direct`); with the stored inverse it needs the condition on hashes of C16; attached layers of bodies that turn are on the other side of the equation.",
 "C93": "Unconditional while some body moves or may move, in the first step and in collisions (`_direct`); with the stored inverse it needs the condition on hashes of C16.",
 "C94": "Proved in exact arithmetic; infinite limits and double arithmetic may never end (counterexamples). `C94_ends_iff_partial` decides the end for all accepted arguments in exact arithmetic; `C94_double_partial` gives it, and the levels with error bounds, in doubles for steps not smaller than 2^-51 of the limits (overflow not modelled).",
 "C95": "Ends of open lines lie on the border; a value equal to a level and gaps are excluded by the statement. C95_border_single is in single precision without conditions on the rounding.",
 "C96": "As long as the list is not reallocated or cleared (counterexample).",
 "C97": "All values.",
 "C98": "Integers outside 32 bits are wrapped; slip flags of a body without segments are undefined (counterexamples).",
 "C99": "Over the reals.",
 "C113": "Reading by white space only for datasets of equal length (shift counterexample); seven digits do not tell all floats apart (counterexample); with -i datasets of state files are not printed (counterexample).",
 "C114": "Labels are nonempty and consist of letters, digits and underscores; expressions hold no quotes or line breaks; at most 100 bodies in a saved file. Streak lists are counted under each other's names, unlabelled bodies are undefined behaviour (counterexamples).",
 "C115": "Exact arithmetic over the reals and trees built with the far factor of the simulation. For points only within the box of the node found by the lookup; between boxes the radius of a close vortex can be ignored (counterexample).",
 "C116": "Clock in range; the number of steps is that of C07. Resumed runs repeat lines, different times can print alike, commas and remarks silently end the list of sensors (counterexamples). Infinite and hexadecimal positions are not modelled.",
 "C117": "The contents, independence of the layout and the refusals are proved. False for damaged files: an empty file and a file cut off inside a list load without complaint, a contour without its body and a caption of 64 characters are undefined behaviour (counterexamples). The segment of the Kutta condition is lost, and slip of other segments depends on the order. Values derived from the contour and compilation of scripts are elsewhere (Body, Eval).",
 "C118": "Holds for bodies. Pointers to members (b.holder_pos, the corners of b:totable()) do not keep their body: using one after its body is gone is undefined (counterexample).",
 "C119": "Doubles are NaN, infinities and rationals. Partial: times need integers of 32 bits, and seconds at most nine decimals in exact arithmetic (C04 and C05 treat the rest). Counterexample: assigning an infinite time, meant as never, is undefined behaviour.",
 "C120": "Exact arithmetic. Counterexamples: after b.slip = true the segments do not act on the flow until the body was moved or loaded again, so in the first step they carry nothing along; b:totable() gives references to the corners, and after writing into one the area and the segments stay those of the old contour until the next motion.",
 "C121": "Partial: `--no-colorbox` before -G, -P or -U is overridden, so order matters there; an integer argument beyond the range of int is undefined behaviour instead of a refusal; `--P a,a` is taken and `-S` on a fluid at rest is possible, but both end the program with an exception because the step of the isolines is zero. Each failure has a counterexample theorem. getopt_long is trusted; hexadecimal numbers and the --ttree switches are left out.",
 "C122": "C122_layers_partial asks for labels that are distinct words, not the name of another data set or a quoted word of the script, and for a command line without single quotes; the counterexamples show two bodies of the same label, a body labelled like a colour of the script, a label equal to the name made for a body without one, a body without points (undefined) and an output file that was longer (its end stays, as it is opened without O_TRUNC). C122_bodies says when a plot is made at all. Layers of the tree and the text before the command plot are given from outside.",
 "C123": "C123_archive_partial and C123_replot_partial ask that no file is called plot.gp; C123_name_counterexample shows a body of that label, whose contour is appended to the script. libarchive is trusted to return the entries that were written.",
 "C124": "Proved for all three programs: every line written according to the table is read as written (C124_flow, C124_xtract, C124_plot, C124_plot_meaning, C124_names), help (C124_help), everything taken is so written (C124_refused), words after two dashes are handed on unchanged (C124_dashes). C124_dash_counterexample: an argument of a script that begins with a dash is taken for an option of vvflow: a negative number is refused, -v shows the version.",
 "C125": "C125_results_partial: for Reynolds numbers that are not at most zero, code 0 exactly when the simulation was done; a file that cannot be loaded ends the program by an uncaught exception. C125_script, C125_codes: codes of scripts and command lines. C125_re_counterexample: with a Reynolds number of zero (or less) nothing is simulated and the code is 0, because the -1 returned by simulate is not an error for Lua.",
 "C126": "Fails in three ways. The result of load_list_bin is dropped, so a missing binary file is no error. A text file is read up to the first word that is not a number, a binary file up to its last complete record, and the rest is dropped silently. A refused append keeps the objects before the wrong argument.",
 "C127": "Fails: the code does the opposite of the manual for every convex contour. The proved theorems state what the order means in the code. Partial: contours that are not convex, and points at the exact ordinate of a corner, are not covered.",
 "C128": "Composes C20, C31, C32 and C43 over the phases of the main loop. Counterexample: if all bodies have the Kutta condition, no equation contains the circulation at infinity and the balance is lost in a step. The condition on hashes of C16 is part of `Call`.",
 "C129": "Partial: for ellipses the area is that of an inscribed polygon exactly, and the bounds need angles that increase (proved for circles only); points at the exact ordinate of a corner of a cylinder are excluded. With a spacing longer than twice a side the side and a corner are lost (C129_coarse_counterexample: a rectangle of half the area asked for). A plate cut at stop < 1 whose gap is longer than the part that is left has a negative area and no message is given (C129_gap_counterexample).",
 "C130": "The pieces of a step are proved to commute with a displacement one by one, and joined: everything a step does after the linear system, with bodies (C130_rest), whole runs without bodies (C130_step, C130_run; the edge beyond which heat is removed is displaced too), and whole runs with bodies all of whose degrees of freedom are prescribed and that are not mounted on each other (C130_bodies, also between machines; the systems of the run are asked to have one solution, or, in C130_sure, LAPACK to fail for singular ones). The linear system has the same solutions if circulations are balanced and the friction has no moment along the displacement (C130_system_partial); for rigid unmounted bodies without conditions, with the change of forces given exactly (C130_rigid, C130_force). Counterexamples: lift of a Kutta body, free rotation under friction, cropping of heat. Runs with springs are not covered, since the force they feel depends on the origin. C130_real is C130_run for the program with the functions of analysis (module Program), all hypotheses about functions discharged.",
 "C131": "Proved: ownership of interpreters, absence of undefined behaviour (if errors carry a text), independence, values and copies of expressions that use no variables (refinement to the model of C12). False: variables set by an earlier or refused text stay, so a text may be in force that a copy or a saved file refuses; error() without a text is undefined; the constants 1_pi, 2_pi and 2_sqrtpi are not names of Lua and cannot be used.",
 "C132": "Proved: the system of equations (iff, all rows, all collisions), tree, near nodes, convective velocities, friction, forces, heat shedding, cropping, pressure; with the hypotheses named (weak particles on the same side of the threshold, bodies not slower than 1e-10, no coincident vortices, points away from walls) also motion, vortex shedding, diffusion, velocity, stream function, vorticity; merging without bodies. Counterexamples for each hypothesis: threshold of weak particles, merging criterion near bodies, coincident vortices, temperature near walls, wall term of vorticity maps, slow bodies. Exact arithmetic (the tree also with a rounding that commutes with the unit of length). Whole runs: C132_run_partial (two runs of n steps with bodies held, prescribed, on springs or striking limits, inviscid, on any two machines; C132_sure_partial derives that the systems have one solution from LAPACK failing for singular ones) and C132_free_partial (without bodies, viscous too; the second run is shown to exist), given that no threshold or coincidence falls between the two systems of units (Neutral) and that the two clocks show the same time (clocks derives it from C01 and C02). C132_real_partial is C132_free_partial for the program with the functions of analysis and the same largest double in both runs (by C143); the radius of a lone particle (smallest double) is still taken in units.",
 "C133": "Refinement: memory as a sequence of numbers, userdata as kind and address, members by offset, against records that are named. What is pointed to is assumed to exist (C96, C118). Tables are not changed after they are made; formatting of numbers by tostring is not modelled.",
 "C134": "Iterations are programs of single accesses that take turns in any order; ownership of locations gives the result, race freedom and termination. Missing: the gaps of the stream function are recorded in the order threads come (C134_gaps_orders: every order happens) and isolines add them in single precision in that order, so isolines near three or more sources can differ between runs (C134_gaps_counterexample). Sums are exact; bodies, sources, tree and mesh are written by no loop and are parameters. The loop that assembles the matrix is C18.",
 "C135": "`C135_curve`: for every smooth curve that avoids the cuts. `C135_line`: for every straight line, with the sources whose cut (the horizontal ray to the left of the source) it crosses. `C135_contour`: closed polygons. `C135_recipe_counterexample`: the recipe of the manual, taken literally, is wrong by the strength of a source to the right of the line. Lines that cross the lines from segments of moving bodies to the centre of mass are excluded; for a body that does not see all of its surface from the centre of mass these run through the fluid.",
 "C136": "Velocity.lean (diffusion, friction, forces, convection), Field.lean (velocity, pressure, stream function), Body.lean (geometry, rigid motion), Inside.lean (point in contour), Flow.lean (motion, shedding), Slae.lean (the system), Epsilon.lean (radii and mergers). Counterexamples: C136_counterexample_mount (the equation of a mounted, displaced body takes the arm to the holder in x and to the axis in y), C136_counterexample_layer, C136_counterexample_crop, C136_counterexample_corner. The boxes of the tree follow the axes, so which pairs are near is an input of these theorems. Where the tree is one node they are joined to whole runs without bodies, viscous or not: C136_run_partial (Run.lean). What the solver returns in turned axes: C136_solved.",
 "C137": "C137_whole: the winding number is an integer. C137_inside_partial: parity of it decides. C137_counterexample: at the exact ordinate of a corner, for a body with its fluid inside, the answer is wrong.",
 "C138": "C138_system_partial: any renaming of the bodies carries solutions of the system to solutions, if the scene is balanced or the first steady body is kept. C138_solved_partial: so what the solver returns is the same for every body. C138_motion_partial: move_and_clean. C138_heat_partial: heat shedding without bodies of constant temperature. Counterexamples: the first body takes up the circulation at infinity; overlapping bodies; stops reached at the same moment; merging. Exact arithmetic: with rounding, sums in another order differ in the last digits.",
 "C139": "The step as one computable function: tree, solver, release, radii, convection, diffusion, motion. Exact arithmetic. The surface (C139_surface_always, C139_surface with viscosity, C139_surface_radii for given radii): the segment whose equation is replaced by the one for the total circulation is left out; in runs with bodies whose segments all have a length of at least some d > 0, every radius is at least d/3 after every step (C139_cores), viscous or not. For bodies held still the hash of their one matrix must not be 0 (hypothesis in Begins; see C93). Runs without bodies and viscosity never get stuck (C139_progress). C139_real states the motion of point vortices with the true formulas.",
 "C140": "Not so in general: ink takes part in building the tree. C140_far_counterexample: sixteen particles of ink divide a node, and vortices are then summed in groups. C140_radius_counterexample: with a body, a single particle moves the middle of the node, from which the nearest segment is sought for the radii. Proved for runs without bodies in which the particles are few and close enough for one node, with and without viscosity.",
 "C141": "Numbers are exact, so sums that threads form in different orders are equal; rounding is outside.  C141_sure asks of the direct solver of one machine that it returns a solution only when there is no other (`Slae.Sure`, shown for exact arithmetic by `sure_exact`); that each system of the run has one solution then follows from its having been solved.  C141_run asks for one solution instead (`Regular`); for bodies held still this follows from one matrix (C141_held).",
 "C142": "The parameters vvflow passes to the tree, exact arithmetic, coordinates up to the largest number. C142_apart for segments and all particles, C142_solver for the solver's equations, C142_sizes for the cells. What the grouping costs is C115.",
 "C143": "C143_run equates whole runs with two choices of these numbers, as optional results, so a run that gets stuck does so with both. Coordinates of cells are taken without rounding to float (hypothesis hfl). That the flow stays within m is asked of the run with the first choice only (Stays); Examples compute it for two runs, and show a number that is too small and changes the radii.",
 "C144": "The loop of C06 and C07 around the step of C139. C144_ends and C144_free take the range of the clock as in C07, C144_free what C139_progress takes. Restarts: C11_program_partial; that radii of the step before do not count is proved for flows with bodies too (interact_bare), but circulations do depend on them.",
 "C145": "For the program of C144 with the log of C09, numbers of a linearly ordered field. The velocity of moving bodies is a parameter that must not read the sums; the one of the code does not (Profile.blind_moving).",
 "C146": "Runs of vortices and ink, viscous or not, are exactly Galilean invariant (C146_free). With bodies the system of equations is (C146_system_partial), except with dampers: C146_damping_counterexample holds for every damped body. What the solver returns: C146_solved_partial. The velocity of the fluid is within an explicit bound (C146_velocity_partial) and not exactly (C146_drag_counterexample). Not covered: steps in which a stop is hit; heat, whose far edge is fixed.",
 "C147": "C147_ink_partial: the bound, for every step of every run in exact arithmetic with everything within the largest number. C147_near: equality while the tree is one node. C147_lag_counterexample: a vortex at distance 100 and two drops in one node; the sensor shows 1/100, the drop goes 396/39601.",
 "C148": "In exact arithmetic, on the whole step of C139. `Start` asks of LAPACK's direct solver that it returns a solution only when there is no other (`Slae.Sure`; DGESV reports zero pivots); that the systems of the run have one solution is then derived from their having been solved (`Slae.Call.nonsingular`). C148_moving shows for the code's function what `Start` asks of the setup about moving bodies. Steps that end in an error are not spoken of.",
 "C149": "C149_run_partial: runs of any length without bodies, viscous or not, with heat and sources, for as long as the particles are few and close enough for one node (the condition of C140). Iso.lean proves it for all changes of axes at once, rotations (C136_run_partial) and mirrors. C149_cut_counterexample: with several nodes a vortex exactly on a cut spoils the symmetry. Ink and bodies are not covered; ink does not influence such flows (C140).",
 "C150": "C150_returns: returns at any moment of a run if the equations are not singular.  C150_direct: with the direct solver it returns a solution or ends with a message, according to whether they are singular.  C150_iff: both for the first step, with the inverse too (if the hash of the matrix is not 0).  With the inverse in later steps of moving bodies a hash that coincides lets a singular matrix through (C16).  Exact arithmetic; the library is assumed to solve whatever is not singular (Able), which exact elimination does (able_exact).",
 "C151": "Exact arithmetic. `Fit` and `Near` say what each state of the run needs; `Sane` says what the library and the tree's constants need. The model's step has no value where the program would abort, stop with a message, read beyond a list or loop forever, so that a value means that none of these happens; whether single velocities are numbers is not part of this claim. With viscosity `Spreads` names what diffusion needs; why it is needed is C75 (a vortex at the very middle of a segment gives NaN; for a heat particle two terms of a denominator may cancel). Bodies that keep a temperature are not covered: their release reads an index of the heat layer that may be stale (C36).",
 "C152": "`C152_same_body` and `C152_two_bodies` are for exact arithmetic, in which columns of the matrix are equal or combine to zero; in double arithmetic the columns of a contour passed twice are equal too (they are computed from equal numbers by the same operations), but elimination may leave a small pivot instead of a zero.  `C152_number`, `C152_no_core` and `C152_file` use a transcription of `_2PI_Xi_g` that records division by zero and logarithms of zero; `C152_closed_file_counterexample` shows that a file which repeats its first corner at the end is accepted although an influence is not a number.",
 "C153": "Exact arithmetic: rounding, overflow and underflow are not included. The counterexamples give the places where the velocity is not a number: corners of moving bodies (a mesh node or a probe may lie there), sources of strength zero, and, without bodies, three vortices at one place, whose radii are zero.",
 "C154": "Exact arithmetic, as in C153. The counterexamples: without bodies the stream function at a vortex, and the pressure at any vortex and any middle of a segment are not numbers (`pressure` is called for nodes outside the bodies only, XPressure.cpp:90, so a vortex is the case a map meets).",
 "C155": "Exact arithmetic; in binary64 the centres and sizes of cells are rounded.",
 "C156": "A flow without anything in it is shown as one rectangle with negative sides.  The cells of a step have other limits of sizes and are not the ones shown.",
 "C157": "The palette of a velocity does not ascend when the range does not contain zero (a flow that is faster than zero everywhere in the window), which gnuplot refuses; the range of the vorticity is empty when both percentiles are zero; a frame of a body without bodies is undefined; an argument with a line break becomes a line of the script.  How gnuplot stretches a palette is stated in the specification.",
 "C158": "vvencode compares the number of arguments as text: two to nine arguments are proved, ten to nineteen (and 100 to 199, ...) show the usage (exact condition, counterexample); a mask that the shell expands makes the second picture the output (counterexample).  gpquick: proved, but the grid of the other axis is drawn (counterexample).  The comment of the film and the conversion of numbers to text are not modelled."
}