# Formal model of vvflow: design

Source under study: `/repo` (vvflow, C++), read as text only. Model and proofs: Lean 4.33.0 with single
Mathlib modules, Lake project in `lean/`.

## Layout

For each topic `X` there is

* `lean/Verif/X/Model.lean` — functions modelling the code, each with a `/repo` file:line citation
  and a note on every simplification;
* `lean/Verif/X/Spec.lean` — (where useful) a small specification that does not use the model's helpers;
* `lean/Verif/X/Lemmas.lean` — helper lemmas;
* `lean/Verif/X/Props.lean` (and further files named after their subject) — property theorems, named `Cnn_...`;
* `lean/Verif/X/Examples.lean` — concrete cases that meet the hypotheses of the theorems, and counterexamples.

`lean/Verif/Common` holds numbers (`Ext`: with infinities and NaN; `Float`: binary64 and binary32 rounding), vectors
and `Outcome` (`ok`, `trap`, `ub`, `error`).  `tools/manifest.py` writes `lean/Verif.lean` and `MANIFEST.json` from the
names of the theorems and `tools/notes.json`; `tools/mutate.py` and `tools/batch.py` try a wrong program in a scratch
copy and write `seeded/LOG.jsonl`.

A theorem name ending in `_partial` proves only a part of the English property; the comment says what
is missing. A name containing `_counterexample` is a proof that the code (the model of it) violates the
full English property on a concrete input; the matching `_partial` theorem then states the exact
condition under which the property does hold.

## Trusted base

1. Lean's kernel, and for each property theorem at most the axioms `propext`, `Classical.choice`,
   `Quot.sound` (checked with `#print axioms`; the axiom list is in the section at the end).
2. The reading of the C++ text: the model is tied to the code only by the cited lines.
3. Number representation. `double`/`float` arithmetic is modelled exactly: an arbitrary linearly ordered
   field (or `ℚ`, or `ℝ` where `cos`, `sin`, `sqrt` occur). Rounding, overflow to infinity and NaN
   propagation are *not* modelled, except where the logic of the code depends on NaN/infinity as codes
   (unset collision limits, rigid springs, cache keys, validation): there an explicit extended number
   type is used. Where only monotonicity of rounding matters (step log) rounding is a parameter.
   `TTime` fields are exact machine integers (wrap-around, traps and UB are explicit outcomes).
4. External components appear as parameters with a stated assumption: LAPACK/BLAS (`dgesv`, `dgetrf`,
   `dgetri`, `dgemv`; C141, C130, C132 and C148 also assume, as the hypothesis `Slae.Sure`, that DGESV fails for singular
   matrices), the Lua evaluator (a function from expression and time to a value or an error —
   i.e. user expressions have no side effects), HDF5 (a store from names to values that returns what was
   written), the C library's `snprintf`/`sscanf` on the formats used, awk's arithmetic.
5. Pointers are modelled as list positions or abstract addresses; `std::shared_ptr` identity as an id.
6. OpenMP: `parallel for` loops are modelled as an arbitrary execution order of their iterations; `Par` refines this to an arbitrary interleaving of
   single reads, writes and critical sections, and proves the loops free of data races (C134).

Not modelled at all: what gnuplot makes of its script, command line help, line editing, CPU/memory performance, HDF5 file
corruption on power loss, allocation failure.

## What is modelled, file by file

| Topic | Code | Claims |
|---|---|---|
| `Time` | `TTime.hpp`, `getset.cpp` (time) | C01-C05 |
| `Loop` | `utils/vvflow/vvflow.cpp` main loop, names of snapshots | C06-C08 |
| `Stepdata` | `MStepdata.cpp` | C09, C10 |
| `Restart` | main loop after `load` on the state of `Flow` | C11 |
| `Eval` | `TEval.cpp` (cache, setter, evaluation) | C12, C13 |
| `Matrix` | `TMatrix.cpp` | C14-C16 |
| `Slae` | `MConvectiveFast.cpp` from `can_use_inverse` on | C17-C22, C88-C93 |
| `Tree` | `TSortedTree.cpp` | C23-C30 |
| `Flow` | `MFlowmove.cpp` | C31-C40, C81, C84 |
| `Epsilon` | `MEpsilonFast.cpp` | C11, C41-C44, C82, C83 |
| `Body` | `TBody.cpp` | C45-C52, C76-C80 |
| `Hdf` | `TSpace_save_hdf.cpp`, `TSpace_load_hdf.cpp`, `vvhdf.cpp` | C53-C57 |
| `Field` | `XField.cpp` | C58-C60 |
| `Isoline` | `XIsoline.cpp` | C61, C62, C94, C95 |
| `Script` | `lua_bodylist.cpp`, `lua_objlist.cpp`, `lua_tobj.cpp`, `lua_tvec.cpp`, `lua_tvec3d.cpp`, `lua_tbody.cpp` | C63, C64, C96-C98 |
| `Gen` | `gen_*.cpp` | C65, C66, C99-C102 |
| `Plot` | `vvplot/optparse.cpp` (window), `vvplot.cpp` (frames) | C67, C103 |
| `Awk` | `utils/scripts/vvawk.*` | C68-C72 |
| `Forces` | `TSpace.cpp` forces, `MDiffusiveFast.cpp`, convection part of `MConvectiveFast.cpp` | C73-C75, C85-C87 |
| `Xfield` | `XVelocity.cpp`, `XStreamfunction.cpp`, `XVorticity.cpp`, `XPressure.cpp`, `SegmentInfluence_linear_source` | C104-C112 |
| `Xtract` | `utils/vvxtract/vvxtract.cpp`; decimal text in `Common/Sci`, `Common/SciRead` | C113, C114 |
| `Accuracy` | `libvvhd/src/MConvectiveFast.cpp` and `TSortedTree.cpp` joined: which vortices and groups enter a velocity | C115 |
| `Sensors` | `utils/vvflow/sensors.cpp` | C116 |
| `Legacy` | `libvvhd/src/TSpace_load_v13.cpp`, choice of the loader in `TSpace.cpp` | C117 |
| `Own` | ownership of bodies in `lua_tbody.cpp`, `lua_bodylist.cpp` and on loading | C118 |
| `Params` | members of `S` in `lua_space.cpp`, `getset.cpp` | C119 |
| `Derived` | calls that change a body: `lua_tbody.cpp`, `TBody::move` | C120 |
| `Options` | `utils/vvplot/optparse.cpp:121-394` (`opt::parse` up to the window), `vvplot.cpp:34-84` (defaults) | C121 |
| `Draw` | `utils/vvplot/vvplot.cpp:165-564`, `utils/vvplot/gnuplotter.cpp`, `gnuplotter.hpp`, `libvvhd/TSpace.cpp:222-227` | C122, C123 |
| `Getopt` | `utils/vvflow/optparse.cpp`, `utils/vvxtract/optparse.cpp`, table of `utils/vvplot/optparse.cpp`, `main` of `utils/vvflow/vvflow.cpp` | C124, C125 |
| `Lists` | `libvvhd/src/TSpace.cpp` 146-175, `utils/vvflow/lua_objlist.cpp` | C126 |
| `Restart` | `Circulation.lean` | C128 |
| `Gen` | `Area.lean`, `AreaMore.lean`, `Round.lean`, `AreaExamples.lean` | C129 |
| `Shift` | `Spec`, `Body`, `Flow`, `Tree`, `Velocity`, `Epsilon`, `Slae`, `Examples` | C130 |
| `Interp` | `libvvhd/src/TEval.cpp` with the stack and variables of its interpreter | C131 |
| `Scale` | `Spec`, `Body`, `Flow`, `Tree`, `Diffusion`, `Velocity`, `Epsilon`, `Slae`, `Examples`, `Step`, `Run`, `RunExamples` | C132 |
| `View` | `Model`, `Spec`, `Props`, `Examples` | C133 |
| `Par` | `MConvectiveFast.cpp`, `XVelocity.cpp`, `XVorticity.cpp`, `XStreamfunction.cpp`, `XPressure.cpp`, `TMatrix.cpp`, `TEval.cpp` | C134 |
| `Xfield` | `Rate.lean`, `RateExamples.lean` | C135 |
| `Turn` | `Spec` `Basic` `Velocity` `Field` `Body` `Inside` `Flow` `Slae` `Epsilon` `Run` (runs without bodies) `Solved` (what the solver returns) `Examples` | C136 |
| `Body` | `Winding` `WindingExamples` | C137 |
| `Order` | `Spec` `Slae` `Solved` `Flow` `Examples` | C138 |
| `Sim` | `Model` `Lemmas` `Bodies` `Still` `Props` `Field` `Free` `Examples` | C139 |
| `Passive` | `utils/vvflow/vvflow.cpp`, `libvvhd/src/TSortedTree.cpp` (no model of its own: `Sim`) | C140 |
| `Sim`, `Slae` | `Machine`, `Solved`, `Unique` | C141 (and C130, C132, C148: systems that were solved have one solution) |
| `Sim` | `Groups`, `GroupsExamples` | C142 |
| `Sentinel` | `TSortedTree.cpp`, `MEpsilonFast.cpp`, `TBody.cpp`, `vvflow.cpp` (what the searches start from) | C143 |
| `Program` | `vvflow.cpp` with the functions of analysis for those of the library | C130, C132, C139 |
| `Whole` | `vvflow.cpp` (main loop with the whole step) | C144, C11 |
| `Profile` | `Model`, `Hide` (phases up to the release of particles do not read the sums), `Solver` (nor do the linear system, tree, radii, convection, diffusion), `Props`, `Examples` | C145 |
| `Tow` | `Spec` (the scene for a moving observer), `Slae` (equations of the bodies), `Solved` (what the solver returns), `Drag` (velocity of the fluid), `Free` (runs without bodies), `Examples` | C146 |
| `Probe` | `utils/vvflow/sensors.cpp`, `MConvectiveFast.cpp` | C147 |
| `Calm` | `Spec`, `Solve`, `Phases`, `Props`, `Examples` | C148 |
| `Mirror` | `Spec` (the mirror image), `Iso` (all changes of axes), `Props`, `Examples` | C149, C136 (runs) |
| `Slae` | `Returns`, `ReturnsExamples` | C150 (and cases for C136, C138, C146) |
| `Sim` | `Stuck`, `StuckExamples` | C151 |
| `Slae` | `Twice`, `TwiceExamples` | C152 |
| `Slae`, `Xfield`, `Sim` | `Slae/Numbers`, `Xfield/Numbers`, `Xfield/NumbersExamples`, `Sim/FarEnds`, `Sim/Divisors`, `Sim/FarEndsExamples` | C153 |
| `Xfield` | `Maps`, `MapsExamples` | C154 |
| `Tree`, `Sim` | `Mutual`, `MutualExamples` | C155 |
| `Draw` | `Cells`, `CellsExamples` | C156 |
| `Draw` | `Frame` | C157 |
| `Shell` | `Model`, `Props` | C158 |

The simplifications of each topic are in the header of its `Model.lean` and in the comments of the definitions; the
conditions of each theorem are in `MANIFEST.json`.  What is not modelled is listed below.

## What is not modelled

* Rounding, except where a topic says otherwise (`Time`, and theorems with a rounding function `fl`).
* LAPACK, HDF5, Lua, gnuplot and the C library themselves: what the code relies on is stated as parameters or
  hypotheses of the models (`Lapack`, `World`, `Lib`).
* Log messages, progress bars, the help texts, the commands of fixed text in the scripts of `vvplot` (margins, fonts).
* The build system and the packaging.

## How the properties are proved

* Machine arithmetic (`Time`): every operation followed by the wrap-around or the undefined behaviour that C++
  prescribes; the specification is the rational number `value / timescale`.
* Loops over time (`Loop`, `Restart`, `Stepdata`): induction over the number of steps with the phases as parameters.
* State machines (`Eval`, `Matrix`, `Slae`): invariants over arbitrary histories of operations.
* Parallel loops: an arbitrary order of iterations; equality for every permutation.
* Geometry (`Body`, `Gen`): polygons as lists of corners; telescoping sums around a closed contour; parity for C48.
* Physics (`Slae`, `Forces`, `Xfield`): what a solution of the filled system says, in terms of a specification of
  velocity, flux and force written in components; derivatives and integrals over the reals (Mathlib).
* Files (`Hdf`, `Field`, `Stepdata`): a file as names and values, or as words; round trips for all contents.

## Axioms

`tools/axioms.sh` prints the axioms of every theorem in `MANIFEST.json`.  Every theorem depends on a subset of
`propext`, `Classical.choice`, `Quot.sound`.  There is no other axiom, no `sorry`, no `native_decide`.

## Findings

Places where the code does not do what the property says; each is a `_counterexample` theorem.

* C01 `C01_counterexample` `0/1 + 1/3^20` has the exact representation `1/3^20`, which fits the fields (`3^20 < 2^32`), but the code returns 0: the common timescale is cut when it exceeds 2^31.
* C01 `C01_counterexample_silent` Another one, outside the representable range: `1/2 + 1/3^20` is computed as a different number, without any report.
* C02 `C02_counterexample_trap` the least common timescale of 1 and `3^20` is `3^20 < 2^32`, but the question whether 1 is divisible by `1/3^20` (it is) kills the process.
* C02 `C02_counterexample` Outside the guard the answer can also be wrong: `1/2^31` is not an integer multiple of `2/3^20`, but the code says it is (and for `1/2` it does not even return).
* C03 `C03_counterexample` two well-formed times with positive timescales, `1/2` and `1/3^20`, kill the process in `divisibleBy` (remainder by zero).
* C04 `C04_counterexample_rounding` with binary64 rounding the decimal number 0.29 (two decimals) is converted to 28/100.
* C04 `C04_counterexample_overflow` a number that is not a short decimal and exceeds 2.147… is undefined behaviour even in exact arithmetic: the search for a timescale ends at 10^9 and the numerator overflows `int32_t`.
* C05 `C05_counterexample_table` `{1, 2^32}` is accepted and stored with a zero timescale; `{2^32+5, 1}` is stored as 5.
* C05 `C05_counterexample_string` one over minus five is accepted and stored as 1/4294967291.
* C07 `C07_double_counterexample` With `double` arithmetic, a step of 1/3 and a finish time of 5/6 (rounded to `double`): the time 1 is less than the finish time plus half a step, but its step is not performed.
* C08 `C08_counterexample` with 49 characters steps 10 and 11 share a file.
* C10 `C10_float_counterexample` the second and third steps have the same `float` time. Resuming from the snapshot of the third, the row of the second is lost.
* C10 `C10_crash_counterexample` a crash after the snapshot is saved but before the row of that step is written. Three steps were taken in a second; only the first row was flushed.
* C10 `C10_profile_counterexample` a run without profiles between two with them leaves blank rows in the profiles.
* C11 `C11_twice_counterexample` a body releases three particles of heat in a step; after saving and loading, it releases three more in the same step.
* C11 `C11_heat_counterexample` for heated bodies: a snapshot is taken after the release of heat, and the first step after loading it releases heat again, one particle for every segment of every body of constant temperature or flux.
* C11 `C11_circulation_counterexample` for bodies in a flow with vortices: the radii of vortices are not in the snapshot, and the vortices of the near nodes do not count when the circulations of the first step are computed. After that computation the fluid passes through every segment (of bodies that do not turn) with the flow of these vortices, instead of not at all (C92).
* C12 `C12_counterexample` with `1/t`, evaluating at 0 and then at −0 returns the cached +∞ instead of −∞.
* C14 `C14_counterexample` registering two unknowns in exchanged order forgets one of them.
* C14 `C14_counterexample_shrink` after shrinking the matrix the self test fails although all columns were registered anew.
* C16 `C16_counterexample_hash` the 1×1 matrices (134608) and (222134) have the same hash,
* C16 `C16_counterexample_collision` so after solving with the first, solving `222134 x = 222134` gives not 1 but `222134/134608`, for every LAPACK: the stored inverse of the first matrix is used.
* C16 `C16_counterexample_large` for a matrix of 16384 unknowns (2 GiB) the byte count does not fit `int`, the hash is 0, equal to its initial value; so the very first solve with an inverse uses whatever the freshly allocated inverse array contains.
* C16 `C16_counterexample_resize` resizing forgets the inverse but not its hash; after shrinking and growing back, filling the same 2×2 matrix again uses an inverse array of which three elements were never written.
* C21 `C21_counterexample` for bodies that move by less than the threshold: the inverse is used before and after a step, but the matrix has changed.
* C22 `C22_counterexample` for a body with two springs: the collision is forgotten within the first solution.
* C29 `C29_counterexample` the midpoint of two neighbouring doubles rounds to the lower one, the first child is empty, the second equal to the parent, and the recursion never ends.
* C36 `C36_crop_counterexample` counterexample (cropping): after the move the particle `obj 2 2 3` is the one found in the layer; cropping removes an earlier particle, and shedding then renews another particle, `obj 10 0 7`, and leaves the one in the layer as it is.
* C36 `C36_bounds_counterexample` Cropping can also make the index invalid: then shedding accesses the list beyond its end.
* C36 `C36_order_counterexample` counterexample (tree): nothing is cropped, but building the tree (on the heat list alone, here) exchanges the two particles, and shedding from the list in that order renews the wrong one.
* C37 `C37_counterexample` counterexample outside the restriction: ink is released although the time is not a multiple of the period.
* C38 `C38_mounted_counterexample` counterexample for mounted bodies: both bodies are within their limits, the step is the nominal one, no collision is flagged, and the mounted body ends at x = 0, beyond its stop at 1/2.
* C38 `C38_negative_counterexample` counterexample for a body that starts beyond its limit: the step is negative, so the whole flow moves backwards.
* C40 `C40_counterexample` a script that makes a body its own root, which the interface accepts, makes the next move hang, whatever else the state is (as long as the step is finite).
* C42 `C42_merge_counterexample` counterexample with merging: vortex 0 is visited first and its radius is 1, the distance to its second nearest neighbour, vortex 2. Later vortex 2 is merged into vortex 1, and when the pass ends the second nearest vortex of non-zero strength is at distance 9.
* C43 `C43_count_counterexample` two vortices of strengths 1 and -1 are merged. One merge is reported, and two vortices have lost their strength.
* C48 `C48_counterexample` beside the top corner, exactly at its height, quick rejection and the contour test disagree.
* C51 `C51_counterexample` asking about the layer once, then moving the body, makes later answers refer to the old position.
* C54 `C54_order_counterexample` With 101 bodies the last one is loaded as the twelfth.
* C56 `C56_sources_counterexample` A file without sources leaves the sources of the previous content in place.
* C58 `C58_rejected_counterexample` A field with origin `(5000, 0)` and spacing `0.01` is written without complaint, but reading it back is refused ("non-uniform grid"), with any IEEE arithmetic: `5000.01` is not a float, and the rounded distance of the first two columns differs from that of the rows.
* C58 `C58_spacing_counterexample` A field with origin `(1000, 1000)` and spacing `0.01` is read back with a different spacing, `41/4096 = 0.010009765625`: plotted, the window is stretched.
* C59 `C59_uneven_counterexample` Only the first two coordinates are looked at: a 3x2 matrix with columns at `0, 1, 100` is accepted, and is drawn with columns at `0, 1, 2`.
* C59 `C59_one_row_counterexample` Every string holding a header, the coordinates of `n ≥ 4` columns and a single row passes all tests of the shape, after which the reader reads beyond its end.
* C60 `C60_percentile_counterexample` Whatever the field, if it has `n` non-zero values and `p < 1/n` (at most one half), asking for the percentile reads outside the array; so does every percentile of a field of zeros.
* C62 `C62_one_crossing_counterexample` If the lower left corner of a cell has exactly the level and the other corners are above it, the isoline crosses one side of the cell only, and no segment is drawn.
* C62 `C62_shared_counterexample` The two cells sharing a side whose lower end has exactly the level and whose upper end is above it disagree: the cell on the right reports a crossing, the cell on the left does not.
* C63 `C63_index_counterexample` For the smallest integer the behaviour of `list[k]` is undefined.
* C64 `C64_atomic_counterexample` If an argument is invalid, the call is refused, but the arguments before it have been appended.
* C64 `C64_own_counterexample` If the list is full, `list:append(list[1], list[1])` reads freed memory: the first element moves everything to a new buffer.
* C65 `C65_twice_counterexample` The generators remove from the caller's table what they read. After a successful call the table is empty, and a second call with it is refused by every generator.
* C65 `C65_limit_counterexample` The upper limit `INT64_MAX` becomes `2 ^ 63` as a double; that value passes the test and its conversion to an integer is undefined.
* C66 `C66_angle_counterexample` The generator accepts it (C65), but the default of zero degrees is not a parallelogram: infinite sides.
* C66 `C66_radii_counterexample` The generator accepts it (C65), but one end circle is inside the other and there is no tangent: numbers that are no numbers.
* C67 `C67_large_counterexample` an admissible request may still be undefined: here the height of the image does not fit into an `int`.
* C67 `C67_height_counterexample` a height that was given is not kept when everything else is given too: it is derived afresh.
* C67 `C67_empty_counterexample` a derived width may be no pixel at all.
* C69 `C69_zero_counterexample` a limit of zero is ignored: with `xmin = 0` the row at `x = -1` is averaged too.
* C70 `C70_outside_counterexample` a zero may be reported that is below the lower limit.
* C70 `C70_missed_counterexample` a sign change inside the limits is not reported if the row that closes it is beyond the upper one.
* C70 `C70_zero_counterexample` a limit of zero is ignored.
* C71 `C71_odd_counterexample` for every odd span the amplitude printed is zero, whatever the data.
* C71 `C71_default_counterexample` so it is for the default span, also where there are a maximum and a minimum.
* C74 `C74_radii_counterexample` With different radii the impulse of a pair changes.
* C75 `C75_heat_counterexample` fails for heat: a cold particle (g = −20/e) in front of a wall gets an infinite velocity, because the wall term cancels the particle's own term in the denominator.
* C75 `C75_middle_counterexample` A vortex exactly at the middle of a segment gets a velocity that is not a number: **C75 fails there**.
* C76 `C76_counterexample` a point of the heat layer of a square is not found, as it is outside of the box of the square.
* C77 `C77_counterexample` a line without the flag takes the flag of the line before.
* C78 `C78_counterexample` a point in the notch, exactly at the height of the tips beside it, is reported to be inside the body, although a point right below it, still in the notch, is not.
* C89 `C89_counterexample` for the vertical velocity of a body displaced from its holder on a turning body: held at distance 3 from the axis of a body turning with unit angular velocity, it gets the velocity 4.
* C91 `C91_counterexample` a short segment inside the core of a vortex, whichever library.
* C94 `C94_infinite_counterexample` which the constructor accepts: the loop never ends.
* C94 `C94_rounding_counterexample` levels from `10^17` to `2·10^17` in steps of 1 are accepted, but `10^17 + 1` is not a double and the loop never ends.
* C96 `C96_moved_counterexample` A particle taken from a full list may not be used once anything has been appended: it points to freed memory, although the element is still in the list.
* C98 `C98_slip_counterexample` reading its slip flag is undefined.
* C98 `C98_wrap_counterexample` 2^32 + 5 assigned to the special segment is accepted and reads as 5.
* C103 `C103_nobody_counterexample` without bodies a body frame is undefined.
* C105 `C105_pressure_counterexample` the pressure map of the same flow, computed twice, is not the same: below the square the second value is smaller by `20 / (2π)`, because the first evaluation left the circulation of the sides in the caller's square.
* C106 `C106_nobody_counterexample` The frame of the first body without bodies reads past the end of the list.
* C106 `C106_again_counterexample` An evaluated field keeps its map: evaluating again after choosing another frame or component changes nothing and reports nothing, so the map is no longer that of the chosen frame.
* C107 `C107_surface_counterexample` around resting bodies without slip, in the state files that the program saves (segments hold circulation that is not yet shed), the velocity map is blind to the bodies, while the stream function map is not: they differ by the velocity of all the segments.
* C108 `C108_rotation_counterexample` for every turning body the velocity close to every segment is wrong.
* C110 `C110_right_counterexample` a source to the right of the window, level with a row of cells, leaves no gap, and in every cell of the row the values differ up the left side by more than half its flux, although less than half of the flux passes through that side.
* C111 `C111_wall_counterexample` at a wall the map shows one half even if there is no vorticity at all.
* C111 `C111_lone_counterexample` a vortex that sees no other vortex, in a flow without bodies, is not drawn at all.
* C112 `C112_smoothing_counterexample` one vortex of circulation `g` in still air, smoothed over a squared radius `e` as the code does. At a point above it an observer who moves at `-c` along the axis sees another static pressure.
* C113 `C113_info_counterexample` Asked for information about a simulation the program does not print the datasets it is also asked for.
* C113 `C113_shift_counterexample` Below the end of a shorter dataset a reader that splits lines at white space finds the numbers of other columns: here those of `two` in the first two columns instead of the second and third.
* C113 `C113_digits_counterexample` Seven digits do not tell all numbers of type `float` apart.
* C114 `C114_streak_counterexample` The lengths of the two streak lists are printed under each other's names.
* C114 `C114_unlabelled_counterexample` With a body without a label the behaviour is undefined: a string is printed after its end of life.
* C115 `C115_outside_counterexample` Between the boxes, a thousandth to the left of the middle, the lookup finds the node at -1, for which the vortex a thousandth to the right of the middle is far away. So its radius is ignored: the velocity is 500, but that of the smoothed vortex, which is all the flow consists of, is less than 1.
* C116 `C116_resume_counterexample` A run, and another from the snapshot of time 1 of that run, which was in the middle of it: the output file has the step of time 1 twice, so times do not grow.
* C116 `C116_time_counterexample` Two steps of different times print the same line.
* C116 `C116_comma_counterexample` Positions separated by commas: no sensor, and a run leaves no output at all.
* C116 `C116_remark_counterexample` A remark in the file: the sensors after it are silently forgotten.
* C117 `C117_empty_counterexample` An empty file is loaded without complaint: everything is gone, the parameters are those of before.
* C117 `C117_kutta_counterexample` The place of the Kutta condition is lost. Two contours of the same segments without slip, with the condition at different ones of them, load to the same body; its special segment is the first one.
* C117 `C117_truncated_counterexample` A file that is cut off loads without complaint: of three vortices the file has only the first, and it is there three times.
* C117 `C117_contour_counterexample` The contour of a body without its parameters: undefined behaviour.
* C117 `C117_caption_counterexample` A caption that fills its place: undefined behaviour, it is read past its end.
* C117 `C117_slip_counterexample` Whether a segment of the steady condition slips depends on the segment before it: between two segments with slip it slips behind them, but not before them.
* C118 `C118_member_counterexample` for members of bodies that nothing else refers to: `p = load_body(f).holder_pos`, or a corner from `gen_cylinder(...):totable()`, points into freed memory once the collector has run.
* C119 `C119_infinite_counterexample` `S.dt_save = inf`, meant as "never", is undefined, although `S.finish = inf` is the way to run without end.
* C120 `C120_slip_counterexample` A script makes a square, turns slip on, and the solver computes circulations: the body is said to slip everywhere, but its segments carry nothing along; if the same simulation is saved and loaded, they do.
* C120 `C120_corner_counterexample` `b:totable()[1].x = -3` changes the corner, but the area is that of the old square until the body is moved, even by nothing.
* C121 `C121_colorbox_counterexample` `vvplot --no-colorbox -G` draws the colour box that was just declined; with the options the other way round it does not.
* C121 `C121_integer_counterexample` `--res-hi 99999999999` is not refused: what `sscanf` stores is undefined.
* C121 `C121_point_counterexample` `--P 1,1` is taken, but the isolines of pressure then have step zero, which the constructor of isolines refuses: the program is ended by an exception.
* C121 `C121_rest_counterexample` `vvplot -S` on a simulation without vortices and inflow: the stream function is the same everywhere, the step is zero, and the program is ended by an exception.
* C122 `C122_label_counterexample` The first contour is lost, the name of the second stays in the script.
* C122 `C122_colour_counterexample` The colour of the streamlines becomes a path, the name of the body stays.
* C122 `C122_unnamed_counterexample` The first contour is lost.
* C122 `C122_empty_counterexample` 
* C122 `C122_output_counterexample` What was beyond the end of the new picture stays.
* C123 `C123_name_counterexample` Its contour is read as a part of the script.
* C124 `C124_dash_counterexample` Without the two dashes they are taken for options of vvflow: a negative number is refused, and `-v` shows the version instead of running the script.
* C125 `C125_re_counterexample` Nothing is simulated, and the code is 0.
* C126 `C126_text_counterexample` A text file that is not a list of objects is not refused: an incomplete line at its end is dropped, and so is everything from a word on that is not a number, without an error.
* C126 `C126_binary_counterexample` A binary file that cannot be opened is not reported, and neither is one that ends inside an object.
* C126 `C126_append_counterexample` A call of `append` that is refused has changed the list: the objects before the wrong argument stay.
* C127 `C127_counterexample` The manual says that counter-clockwise order stands for the flow around the body. On the contrary: if the corners of a convex contour go counter-clockwise, points within the contour are fluid and points without belong to the body.
* C128 `C128_counterexample` if all bodies have the Kutta condition: then no equation contains the circulation at infinity, and everything else going well the circulations are out of balance after the step, though no weak vortex is dropped.
* C129 `C129_coarse_counterexample` A rectangle 1 by 0.1 with spacing 0.5 loses its short sides and with them two of its corners: the area of the body is half of what was asked for.
* C129 `C129_gap_counterexample` A plate with ends of radius 1 and length 2, of which the first half is made, with a gap of 1: the parameters are accepted, but the hollow arc goes beyond the nose, the sides are walked backwards and the body has a negative area (it is the fluid).
* C130 `C130_kutta_counterexample` for a body with a Kutta condition: the circulation on its surface is the same wherever the origin is, the lift is not.
* C130 `C130_friction_counterexample` for a body that turns freely: the friction torque is taken about the origin and used as the torque about the axis, so the angular velocity depends on where the origin is, although the circulation is balanced.
* C130 `C130_crop_counterexample` for the removal of heat far downstream: the place is counted from the origin.
* C131 `C131_names_counterexample` `1_pi`, `2_pi` and `2_sqrtpi` are set but no expression can name them; all other constants and functions can be named.
* C131 `C131_leftover_counterexample` Variables set by an earlier text stay: `x` is accepted after `x=2 return x`, and refused when it is copied (or read from a file it was saved to).
* C131 `C131_refused_counterexample` A text that is refused has been run: variables it set stay, and the expression in force changes its value.
* C131 `C131_message_counterexample` `error()` makes the assignment undefined: a `std::string` is made of a null pointer.
* C132 `C132_threshold_counterexample` for weak particles: one and the same number is the threshold for circulations and for amounts of heat, so no number will do in the new units what the old one did in the old.
* C132 `C132_merge_counterexample` for merging near a body: how near vortices must be to be merged grows with the distance from the body in the units chosen (`0.16·dl²·(1+|dist|)`, MEpsilonFast.cpp:35-36). Two vortices five apart, ten from a wall (and a third far away), stay two; in millimetres instead of centimetres they become one.
* C132 `C132_coincident_counterexample` for vortices taken for coincident (nearer than `1e-10`): in a smaller unit they drive each other apart.
* C132 `C132_temperature_counterexample` for the unit of temperature: near a wall an amount of heat is added to an area, so the motion of heat depends on the unit of temperature although the equation of heat is linear.
* C132 `C132_wall_counterexample` for maps of vorticity near walls: the addend at the wall is one half in all units, so in a map in other units it is not what it was.
* C132 `C132_slow_counterexample` for bodies slower than `1e-10`: they move nothing, in a unit of time ten times as long they do.
* C134 `C134_gaps_counterexample` The gaps are recorded in the order the threads come, and isolines add them to the values at the corners in this order and in single precision: with three sources there are two runs after which the corners of a cell differ.
* C135 `C135_recipe_counterexample` (counterexample). The recipe of the manual for the flow rate between (2, -1) and (2, 1), a difference of two values of the stream function, is wrong by the whole strength of a source at (5, 0).
* C136 `C136_counterexample_mount` for a body mounted on another and displaced from its holder: the equation of its velocity along `x` takes the arm from the axis of the root to the holder, that along `y` to the axis of the body, so a solution found in one axes is none in the others.
* C136 `C136_counterexample_layer` for the heat layer: the layer lies outside the contour but is looked for within the bounding box of the contour, so which part of it heats depends on the axes.
* C136 `C136_counterexample_crop` for the temperature far downstream: `heat_crop` removes heat beyond a value of `x`.
* C136 `C136_counterexample_corner` at the exact ordinate of a corner: whether such a particle is removed depends on the axes.
* C137 `C137_counterexample` at the exact ordinate of a corner: the contour does not go round a point of the notch at the height of the tips at all, so the point should belong to the body that has its fluid inside, as its neighbours do; the program takes it for fluid.
* C138 `C138_counterexample_first` if circulations are not in balance, as in the first step of a flow with a circulation at infinity: the body that comes first in the list takes all of it, so the solution depends on the order.
* C138 `C138_counterexample_overlap` for overlapping bodies: a vortex inside two bodies is taken up by the first of the list.
* C138 `C138_counterexample_tie` for two stops reached at the same moment: the first in the list is reported, so only this body bounces.
* C138 `C138_counterexample_merge` for the merging of vortices: the pass merges a vortex with its neighbour as it comes to it, and whom the next ones meet depends on that. Of three vortices in a row, the first two are merged in one order, the last two in the other.
* C140 `C140_far_counterexample` does not hold in general: sixteen particles of ink make two nodes of one, and the vortices of the other group are then summed as one. The flows are the same otherwise, and the first vortex goes to different places.
* C140 `C140_radius_counterexample` does not hold with bodies, even when all are in one node: a single particle of ink moves the middle of the node, another segment, of another length, is then the nearest to it, and the radii of the vortices are no less than a third of that.
* C146 `C146_damping_counterexample` for every body held by a damper: the force of the damper is proportional to the velocity of the body over the ground, not over its holder. Whatever the solution is, for an observer who moves along the axis of the damper the equations of the same scene are not solved by what he sees.
* C146 `C146_drag_counterexample` for the velocity of the fluid around a body: at a point three away from a square of side two, that is at rest for one observer and is carried along with the whole fluid for the other, the program adds to the velocity what it would not add for the first.
* C147 `C147_lag_counterexample` A sensor at the first drop shows a velocity of a hundredth, but in the time 1 the drop goes 396/39601.
* C149 `C149_cut_counterexample` does not hold for several nodes: the vortex in the middle is exactly where the node is cut, and belongs to the upper half in the flow as well as in the image. In the image this is the half with the ink, which is divided again; the vortex gets a node of its own, for which the others are summed in groups, and goes to another place.
* C152 `C152_closed_file_counterexample` (a file that closes its contour). A file whose last line repeats the first is read without error, and an influence is not a number.
* C153 `C153_corner_counterexample` (a corner of a moving body). At a corner of a body that moves the velocity is not a number.
* C153 `C153_source_counterexample` (a source of strength zero). At a source of strength zero the velocity is not a number, nor is the equation of a segment whose middle is there.
* C153 `C153_zero_source_counterexample` (a source of strength zero, the equation).
* C153 `C153_coinciding_counterexample` (three vortices at one place). Without bodies the radii of three vortices at one place are zero, and the formula of their influence on each other divides by zero.
* C154 `C154_no_bodies_counterexample` (without bodies). In a flow without bodies the stream function at a vortex is not a number.
* C154 `C154_pressure_counterexample` (the pressure on a wall). At the middle of a segment, also of a body at rest, and at a vortex the pressure is not a number.
* C156 `C156_empty_counterexample` One rectangle is drawn; its sides are negative.
* C156 `C156_step_counterexample` The limits of sizes are others there: of the same flow a step has two cells.
* C157 `C157_comment_counterexample` what follows it is a line of the script of its own.
* C157 `C157_vorticity_counterexample` When both percentiles are zero and no range is given, the range is empty.
* C157 `C157_velocity_counterexample` the palette descends from its first stop to the third.
* C158 `C158_many_counterexample` A mask that the shell expands to nine or more names gives the usage.
* C158 `C158_expanded_counterexample` the second picture is taken for the name of the output.
* C158 `C158_grid_counterexample` Lines at the marks of the x axis are asked for and those at the marks of the y axis are drawn.
