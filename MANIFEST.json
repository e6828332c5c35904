{
 "claims": [
  {
   "property": "C01",
   "status": "partial",
   "theorems": [
    "Vvflow.TTime.C01_add_exact_partial",
    "Vvflow.TTime.C01_no_drift_partial",
    "Vvflow.TTime.C01_counterexample",
    "Vvflow.TTime.C01_counterexample_silent"
   ],
   "note": "Exact whenever timescales are equal or their lcm is at most 2^31 and the result fits; the counterexample is outside that guard (truncated lcm), i.e. outside the property's own representability condition."
  },
  {
   "property": "C02",
   "status": "partial",
   "theorems": [
    "Vvflow.TTime.C02_divisibleBy_iff_partial",
    "Vvflow.TTime.C02_zero_period",
    "Vvflow.TTime.C02_counterexample_trap",
    "Vvflow.TTime.C02_counterexample"
   ],
   "note": "Exact divisibility under the representability guard; counterexample shows the guard is needed."
  },
  {
   "property": "C03",
   "status": "partial",
   "theorems": [
    "Vvflow.TTime.C03_lcm_terminates",
    "Vvflow.TTime.C03_no_abort_partial",
    "Vvflow.TTime.C03_counterexample"
   ],
   "note": "lcm always terminates; no trap under the guard; a trap exists otherwise (counterexample)."
  },
  {
   "property": "C04",
   "status": "partial",
   "theorems": [
    "Vvflow.TTime.C04_decimal_exact_partial",
    "Vvflow.TTime.C04_truncation_partial",
    "Vvflow.TTime.C04_counterexample_rounding",
    "Vvflow.TTime.C04_counterexample_overflow"
   ],
   "note": "Exact arithmetic only; on binary64 the claim is false (0.29 becomes 28/100), and non-decimal numbers above 2.147 overflow."
  },
  {
   "property": "C05",
   "status": "partial",
   "theorems": [
    "Vvflow.TTime.C05_error_keeps_old",
    "Vvflow.TTime.C05_table_partial",
    "Vvflow.TTime.C05_counterexample_table",
    "Vvflow.TTime.C05_string_complete",
    "Vvflow.TTime.C05_print_roundtrip",
    "Vvflow.TTime.C05_string_sound_partial",
    "Vvflow.TTime.C05_counterexample_string",
    "Vvflow.TTime.C05_other",
    "Vvflow.TTime.C05_number_partial"
   ],
   "note": "All-or-nothing proved for every value; strings and tables exact in range; false for tables with integers beyond 32 bits and for negative denominators in strings."
  },
  {
   "property": "C06",
   "status": "proved",
   "theorems": [
    "Vvflow.Loop.C06_schedule",
    "Vvflow.Loop.C06_contents"
   ],
   "note": "For every rounding of numbers with a relative error of at most 2^-53 (double is one: near_rnd64). The times of the run must be representable by the clock (C03 shows what happens otherwise); the phases of a step are parameters."
  },
  {
   "property": "C07",
   "status": "partial",
   "theorems": [
    "Vvflow.Loop.C07_infinite",
    "Vvflow.Loop.C07_steps",
    "Vvflow.Loop.C07_finish",
    "Vvflow.Loop.C07_exact",
    "Vvflow.Loop.C07_double_counterexample"
   ],
   "note": "For every rounding with a relative error of at most 2^-53, as in C06. C07_steps: a step closer to the end than 2^-51 of it may be missing or added; the counterexample is a step missing in double arithmetic. C07_finish: exact when the finish time is near that of a step. The clock must keep in range."
  },
  {
   "property": "C08",
   "status": "partial",
   "theorems": [
    "Vvflow.Loop.C08_numbers_partial",
    "Vvflow.Loop.C08_number_rounded",
    "Vvflow.Loop.C08_names_partial",
    "Vvflow.Loop.C08_long_caption",
    "Vvflow.Loop.C08_counterexample",
    "Vvflow.Loop.C08_percent"
   ],
   "note": "Holds for captions of at most 41 characters without percent signs. False for longer captions (C08_counterexample, C08_long_caption) and undefined with percent signs (C08_percent)."
  },
  {
   "property": "C09",
   "status": "proved",
   "theorems": [
    "Vvflow.Stepdata.C09_aligned",
    "Vvflow.Stepdata.C09_any_runs",
    "Vvflow.Stepdata.C09_new_log"
   ],
   "note": "A log is a list of rows of each dataset; the HDF5 library is a parameter."
  },
  {
   "property": "C10",
   "status": "partial",
   "theorems": [
    "Vvflow.Stepdata.C10_crash_partial",
    "Vvflow.Stepdata.C10_float_counterexample",
    "Vvflow.Stepdata.C10_crash_counterexample",
    "Vvflow.Stepdata.C10_profile_counterexample",
    "Vvflow.Stepdata.C10_resume_partial",
    "Vvflow.Stepdata.C10_lost",
    "Vvflow.Stepdata.C10_increasing_partial"
   ],
   "note": "False in three ways (counterexamples): float times, a crash before the row is written, a run without profiles. Otherwise proved, including a crash that leaves any part of the unflushed rows."
  },
  {
   "property": "C11",
   "status": "partial",
   "theorems": [
    "Vvflow.Epsilon.C11_radii_forgotten",
    "Vvflow.Restart.C11_twice_counterexample",
    "Vvflow.Restart.C11_free_partial",
    "Vvflow.Restart.C11_heat_counterexample",
    "Vvflow.Restart.C11_circulation_counterexample",
    "Vvflow.Whole.C11_program_partial"
   ],
   "note": "Proved for flows without bodies, for the whole program (C11_program_partial) with the tree, radii, convection and diffusion as modelled. False with heated bodies (heat is released twice) and with bodies in a flow with vortices (radii are not saved)."
  },
  {
   "property": "C12",
   "status": "partial",
   "theorems": [
    "Vvflow.Eval.C12_eval_fresh_partial",
    "Vvflow.Eval.C12_fresh_unique",
    "Vvflow.Eval.C12_in_force_exists",
    "Vvflow.Eval.C12_counterexample"
   ],
   "note": "Holds for texts that do not tell 0 from -0; counterexample: 1/t."
  },
  {
   "property": "C13",
   "status": "proved",
   "theorems": [
    "Vvflow.Eval.C13_rejected",
    "Vvflow.Eval.C13_empty"
   ],
   "note": "The Lua interpreter is a parameter."
  },
  {
   "property": "C14",
   "status": "partial",
   "theorems": [
    "Vvflow.Mat.C14_registry_partial",
    "Vvflow.Mat.C14_exact",
    "Vvflow.Mat.C14_fresh",
    "Vvflow.Mat.C14_repeat",
    "Vvflow.Mat.C14_counterexample",
    "Vvflow.Mat.C14_counterexample_shrink"
   ],
   "note": "Exact condition in C14_exact; counterexamples for exchanged unknowns and for a matrix that shrinks."
  },
  {
   "property": "C15",
   "status": "partial",
   "theorems": [
    "Vvflow.Mat.C15_direct",
    "Vvflow.Mat.C15_by_cells",
    "Vvflow.Mat.C15_solve_partial",
    "Vvflow.Mat.C15_solve_right_only_partial"
   ],
   "note": "Direct mode in full; with a stored inverse as long as the 32-bit hash confuses no two matrices (C16)."
  },
  {
   "property": "C16",
   "status": "partial",
   "theorems": [
    "Vvflow.Mat.C16_reused_inverse_partial",
    "Vvflow.Mat.C16_counterexample_hash",
    "Vvflow.Mat.C16_counterexample_collision",
    "Vvflow.Mat.C16_counterexample_large",
    "Vvflow.Mat.C16_counterexample_resize",
    "Vvflow.Slae.C16_resting_partial"
   ],
   "note": "Needs that the hash confuses no two matrices and that the size does not change; four counterexamples, one with two concrete colliding matrices. For bodies that stay where they are the hash of their one matrix must only not be 0 (`C16_resting_partial`)."
  },
  {
   "property": "C17",
   "status": "proved",
   "theorems": [
    "Vvflow.Slae.C17_never_fails",
    "Vvflow.Slae.C17_unknowns",
    "Vvflow.Slae.C17_enumerate",
    "Vvflow.Slae.C17_once"
   ],
   "note": "All list lengths; pointers are modelled as addresses."
  },
  {
   "property": "C18",
   "status": "proved",
   "theorems": [
    "Vvflow.Slae.C18_schedule"
   ],
   "note": "All assignments of threads."
  },
  {
   "property": "C19",
   "status": "proved",
   "theorems": [
    "Vvflow.Slae.C19_equations"
   ],
   "note": "All scenes."
  },
  {
   "property": "C20",
   "status": "partial",
   "theorems": [
    "Vvflow.Slae.C20_total_direct",
    "Vvflow.Slae.C20_body_direct",
    "Vvflow.Slae.C20_kutta_direct",
    "Vvflow.Slae.C20_total_partial",
    "Vvflow.Slae.C20_body_partial",
    "Vvflow.Slae.C20_kutta_partial"
   ],
   "note": "Unconditional while some body moves or may move, in the first step and in collisions (`_direct`); with the stored inverse it needs the condition on hashes of C16."
  },
  {
   "property": "C21",
   "status": "partial",
   "theorems": [
    "Vvflow.Slae.C21_counterexample",
    "Vvflow.Slae.C21_matrix",
    "Vvflow.Slae.C21_right"
   ],
   "note": "False for bodies that move by less than the threshold; proved when all bodies are where they were."
  },
  {
   "property": "C22",
   "status": "partial",
   "theorems": [
    "Vvflow.Slae.C22_counterexample",
    "Vvflow.Slae.C22_stop_partial",
    "Vvflow.Slae.C22_bounce_partial",
    "Vvflow.Slae.C22_spring_partial",
    "Vvflow.Slae.C22_forgotten"
   ],
   "note": "False for two springs: the collision is forgotten (C22_forgotten, for every such scene). Proved for one spring."
  },
  {
   "property": "C23",
   "status": "proved",
   "theorems": [
    "Vvflow.Tree.C23_exactly_once"
   ],
   "note": "All lists and orders of the parallel build."
  },
  {
   "property": "C24",
   "status": "proved",
   "theorems": [
    "Vvflow.Tree.C24_find_own_node"
   ],
   "note": "Needs distinct bounds as stated."
  },
  {
   "property": "C25",
   "status": "proved",
   "theorems": [
    "Vvflow.Tree.C25_far_zero",
    "Vvflow.Tree.C25_cover",
    "Vvflow.Tree.C25_self_near"
   ],
   "note": "All trees built by the code."
  },
  {
   "property": "C26",
   "status": "proved",
   "theorems": [
    "Vvflow.Tree.C26_far_separated"
   ],
   "note": "All trees built by the code."
  },
  {
   "property": "C27",
   "status": "proved",
   "theorems": [
    "Vvflow.Tree.C27_moments"
   ],
   "note": "Exact arithmetic."
  },
  {
   "property": "C28",
   "status": "proved",
   "theorems": [
    "Vvflow.Tree.C28_boxes"
   ],
   "note": "Exact arithmetic; boxes are attained."
  },
  {
   "property": "C29",
   "status": "partial",
   "theorems": [
    "Vvflow.Tree.C29_counterexample",
    "Vvflow.Tree.C29_terminates_partial",
    "Vvflow.Tree.C29_terminates_exact",
    "Vvflow.Tree.C29_depth_irrelevant"
   ],
   "note": "Proved in exact arithmetic and for every rounding whose midpoints separate different coordinates; binary64 does not (counterexample)."
  },
  {
   "property": "C30",
   "status": "proved",
   "theorems": [
    "Vvflow.Tree.C30_rebuild"
   ],
   "note": "Any number of rebuilds."
  },
  {
   "property": "C31",
   "status": "proved",
   "theorems": [
    "Vvflow.Flow.C31_shed",
    "Vvflow.Flow.C31_rest"
   ],
   "note": "Exact arithmetic."
  },
  {
   "property": "C32",
   "status": "proved",
   "theorems": [
    "Vvflow.Flow.C32_body",
    "Vvflow.Flow.C32_move",
    "Vvflow.Flow.C32_step",
    "Vvflow.Flow.C32_dropped"
   ],
   "note": "Exact arithmetic."
  },
  {
   "property": "C33",
   "status": "proved",
   "theorems": [
    "Vvflow.Flow.C33_vortices",
    "Vvflow.Flow.C33_vortices_keep",
    "Vvflow.Flow.C33_ink",
    "Vvflow.Flow.C33_heat",
    "Vvflow.Flow.C33_rest"
   ],
   "note": "Exact arithmetic."
  },
  {
   "property": "C34",
   "status": "proved",
   "theorems": [
    "Vvflow.Flow.C34_clean",
    "Vvflow.Flow.C34_removed"
   ],
   "note": "All lists."
  },
  {
   "property": "C35",
   "status": "proved",
   "theorems": [
    "Vvflow.Flow.C35_balance",
    "Vvflow.Flow.C35_shed"
   ],
   "note": "Exact arithmetic."
  },
  {
   "property": "C36",
   "status": "partial",
   "theorems": [
    "Vvflow.Flow.C36_crop_counterexample",
    "Vvflow.Flow.C36_bounds_counterexample",
    "Vvflow.Flow.C36_order_counterexample",
    "Vvflow.Flow.C36_found",
    "Vvflow.Flow.C36_renewed_partial"
   ],
   "note": "Holds when nothing changes the heat list between the move and the shedding; in the program's own loop the list is cropped (and sorted by the tree) in between, and the counterexamples show the wrong particle renewed and an access beyond the list."
  },
  {
   "property": "C37",
   "status": "partial",
   "theorems": [
    "Vvflow.Flow.C37_release_partial",
    "Vvflow.Flow.C37_zero",
    "Vvflow.Flow.C37_counterexample"
   ],
   "note": "Inherits the representability guard of C02."
  },
  {
   "property": "C38",
   "status": "partial",
   "theorems": [
    "Vvflow.Flow.C38_mounted_counterexample",
    "Vvflow.Flow.C38_negative_counterexample",
    "Vvflow.Flow.C38_step",
    "Vvflow.Flow.C38_limits_partial"
   ],
   "note": "Holds for bodies without root that start within their limits; counterexamples for a mounted body and for a body that starts beyond its limit (negative step)."
  },
  {
   "property": "C39",
   "status": "proved",
   "theorems": [
    "Vvflow.Flow.C39_attached"
   ],
   "note": "Exact arithmetic."
  },
  {
   "property": "C40",
   "status": "partial",
   "theorems": [
    "Vvflow.Flow.C40_fuel",
    "Vvflow.Flow.C40_hang",
    "Vvflow.Flow.C40_ends_partial",
    "Vvflow.Flow.C40_ordered",
    "Vvflow.Flow.C40_set_root",
    "Vvflow.Flow.C40_counterexample"
   ],
   "note": "Holds when roots are declared before use; a body made its own root makes the move endless (counterexample)."
  },
  {
   "property": "C41",
   "status": "proved",
   "theorems": [
    "Vvflow.Epsilon.C41_same_sign",
    "Vvflow.Epsilon.C41_opposite",
    "Vvflow.Epsilon.C41_list"
   ],
   "note": "Exact arithmetic."
  },
  {
   "property": "C42",
   "status": "partial",
   "theorems": [
    "Vvflow.Epsilon.C42_merge_counterexample",
    "Vvflow.Epsilon.C42_vortex",
    "Vvflow.Epsilon.C42_heat",
    "Vvflow.Epsilon.C42_visit",
    "Vvflow.Epsilon.C42_tree",
    "Vvflow.Epsilon.C42_segments"
   ],
   "note": "Radius of a particle at its visit: proved for vortices, heat and for particles found through the tree. False after merges of the same pass (C42_merge_counterexample): radii computed before a neighbour is merged are not recomputed."
  },
  {
   "property": "C43",
   "status": "partial",
   "theorems": [
    "Vvflow.Epsilon.C43_count_counterexample",
    "Vvflow.Epsilon.C43_sequence",
    "Vvflow.Epsilon.C43_conserves",
    "Vvflow.Epsilon.C43_plain",
    "Vvflow.Epsilon.C43_count_partial",
    "Vvflow.Epsilon.C43_impulse"
   ],
   "note": "Conservation proved for every pass; the number returned counts merges except that a pair cancelling exactly is counted but leaves two vanished particles (C43_count_counterexample)."
  },
  {
   "property": "C44",
   "status": "proved",
   "theorems": [
    "Vvflow.Epsilon.C44_near",
    "Vvflow.Epsilon.C44_fallback",
    "Vvflow.Epsilon.C44_none",
    "Vvflow.Epsilon.C44_overrun"
   ],
   "note": "The search among near nodes and the fall-back search when no near node has segments; C44_overrun: the fall-back search advances its iterator by ten without checking the end of the list."
  },
  {
   "property": "C45",
   "status": "proved",
   "theorems": [
    "Vvflow.Body.C45_move",
    "Vvflow.Body.C45_copy",
    "Vvflow.Body.C45_load"
   ],
   "note": "All lists."
  },
  {
   "property": "C46",
   "status": "proved",
   "theorems": [
    "Vvflow.Body.C46_corners",
    "Vvflow.Body.C46_distances",
    "Vvflow.Body.C46_integrals",
    "Vvflow.Body.C46_axis_inertia",
    "Vvflow.Body.C46_real"
   ],
   "note": "Exact arithmetic; the centre of mass of a body of zero area needs a non-zero length (the code divides by it)."
  },
  {
   "property": "C47",
   "status": "proved",
   "theorems": [
    "Vvflow.Body.C47_bookkeeping"
   ],
   "note": "All histories."
  },
  {
   "property": "C48",
   "status": "partial",
   "theorems": [
    "Vvflow.Body.C48_counterexample",
    "Vvflow.Body.C48_reject_partial",
    "Vvflow.Body.C48_shortcut_partial"
   ],
   "note": "Holds for points at no corner's exact ordinate; counterexample at the tip of a rhombus."
  },
  {
   "property": "C49",
   "status": "proved",
   "theorems": [
    "Vvflow.Body.C49_start",
    "Vvflow.Body.C49_direction",
    "Vvflow.Body.C49_translation"
   ],
   "note": "Exact arithmetic."
  },
  {
   "property": "C50",
   "status": "proved",
   "theorems": [
    "Vvflow.Body.C50_nearest",
    "Vvflow.Body.C50_empty",
    "Vvflow.Body.C50_found"
   ],
   "note": "Exact arithmetic."
  },
  {
   "property": "C51",
   "status": "partial",
   "theorems": [
    "Vvflow.Body.C51_counterexample",
    "Vvflow.Body.C51_layer_partial",
    "Vvflow.Body.C51_copy"
   ],
   "note": "False after a move (the layer is cached once); holds before the first query and while the body does not move."
  },
  {
   "property": "C52",
   "status": "proved",
   "theorems": [
    "Vvflow.Body.C52_new",
    "Vvflow.Body.C52_weightless",
    "Vvflow.Body.C52_message",
    "Vvflow.Body.C52_strict",
    "Vvflow.Body.C52_lenient",
    "Vvflow.Body.C52_rigid"
   ],
   "note": "The Lua interpreter is a parameter."
  },
  {
   "property": "C53",
   "status": "proved",
   "theorems": [
    "Vvflow.Hdf.C53_saves_iff",
    "Vvflow.Hdf.C53_round_trip"
   ],
   "note": "The HDF5 library is a parameter."
  },
  {
   "property": "C54",
   "status": "partial",
   "theorems": [
    "Vvflow.Hdf.C54_order_partial",
    "Vvflow.Hdf.C54_order_counterexample"
   ],
   "note": "Up to a hundred bodies; the last of 101 is loaded as the twelfth."
  },
  {
   "property": "C55",
   "status": "proved",
   "theorems": [
    "Vvflow.Hdf.C55_links",
    "Vvflow.Hdf.C55_foreign_root",
    "Vvflow.Hdf.C55_unknown_root"
   ],
   "note": "The HDF5 library is a parameter."
  },
  {
   "property": "C56",
   "status": "partial",
   "theorems": [
    "Vvflow.Hdf.C56_replaced_partial",
    "Vvflow.Hdf.C56_forgets_partial",
    "Vvflow.Hdf.C56_sources_counterexample",
    "Vvflow.Hdf.C56_values",
    "Vvflow.Hdf.C56_expressions",
    "Vvflow.Hdf.C56_bodies"
   ],
   "note": "All parameters of the simulation and of the bodies, the segments, and all lists but the sources, which are appended to what was there (counterexample)."
  },
  {
   "property": "C57",
   "status": "proved",
   "theorems": [
    "Vvflow.Hdf.C57_codes",
    "Vvflow.Hdf.C57_legacy"
   ],
   "note": "All values."
  },
  {
   "property": "C58",
   "status": "partial",
   "theorems": [
    "Vvflow.Field.C58_values",
    "Vvflow.Field.C58_round_trip_partial",
    "Vvflow.Field.C58_rejected_counterexample",
    "Vvflow.Field.C58_spacing_counterexample"
   ],
   "note": "Values, origin and resolution in full; the spacing only if the neighbours of the origin are floats (two counterexamples)."
  },
  {
   "property": "C59",
   "status": "partial",
   "theorems": [
    "Vvflow.Field.C59_uneven_counterexample",
    "Vvflow.Field.C59_accepted",
    "Vvflow.Field.C59_overread_partial",
    "Vvflow.Field.C59_create",
    "Vvflow.Field.C59_rejected",
    "Vvflow.Field.C59_one_row_counterexample"
   ],
   "note": "Exactly which strings are accepted, refused or read beyond the end. False for uneven grids and for one row."
  },
  {
   "property": "C60",
   "status": "partial",
   "theorems": [
    "Vvflow.Field.C60_min",
    "Vvflow.Field.C60_max",
    "Vvflow.Field.C60_percentile_low_partial",
    "Vvflow.Field.C60_percentile_high_partial",
    "Vvflow.Field.C60_percentile_defined_partial",
    "Vvflow.Field.C60_percentile_counterexample"
   ],
   "note": "Minimum and maximum in full; percentiles whenever the rank is not zero, else outside the array (counterexample)."
  },
  {
   "property": "C61",
   "status": "proved",
   "theorems": [
    "Vvflow.Isoline.C61_strokes",
    "Vvflow.Isoline.C61_points",
    "Vvflow.Isoline.C61_output"
   ],
   "note": "Any rounding."
  },
  {
   "property": "C62",
   "status": "partial",
   "theorems": [
    "Vvflow.Isoline.C62_even_partial",
    "Vvflow.Isoline.C62_paired_partial",
    "Vvflow.Isoline.C62_on_side",
    "Vvflow.Isoline.C62_found",
    "Vvflow.Isoline.C62_in_cell",
    "Vvflow.Isoline.C62_shared_vertical_partial",
    "Vvflow.Isoline.C62_shared_horizontal_partial",
    "Vvflow.Isoline.C62_one_crossing_counterexample",
    "Vvflow.Isoline.C62_shared_counterexample"
   ],
   "note": "In full when no corner equals the level; false at ties."
  },
  {
   "property": "C63",
   "status": "partial",
   "theorems": [
    "Vvflow.Script.C63_insert",
    "Vvflow.Script.C63_erase",
    "Vvflow.Script.C63_nodup",
    "Vvflow.Script.C63_history",
    "Vvflow.Script.C63_index",
    "Vvflow.Script.C63_index_counterexample",
    "Vvflow.Script.C63_iterate"
   ],
   "note": "Everything but the index INT64_MIN, which is undefined."
  },
  {
   "property": "C64",
   "status": "partial",
   "theorems": [
    "Vvflow.Script.C64_append_partial",
    "Vvflow.Script.C64_atomic_counterexample",
    "Vvflow.Script.C64_own_partial",
    "Vvflow.Script.C64_own_counterexample"
   ],
   "note": "Proved for valid arguments; an invalid one leaves the earlier ones appended; own elements of a full list are read after being freed."
  },
  {
   "property": "C65",
   "status": "partial",
   "theorems": [
    "Vvflow.Gen.C65_cylinder",
    "Vvflow.Gen.C65_ellipse",
    "Vvflow.Gen.C65_plate",
    "Vvflow.Gen.C65_parallelogram",
    "Vvflow.Gen.C65_savonius",
    "Vvflow.Gen.C65_gpj",
    "Vvflow.Gen.C65_box",
    "Vvflow.Gen.C65_twice_counterexample",
    "Vvflow.Gen.C65_limit_counterexample"
   ],
   "note": "Acceptance and refusal exactly characterised for every generator. A table can be used once only, and 2^63 segments pass the test (counterexamples)."
  },
  {
   "property": "C66",
   "status": "partial",
   "theorems": [
    "Vvflow.Gen.C66_segN",
    "Vvflow.Gen.C66_seg",
    "Vvflow.Gen.C66_arcN",
    "Vvflow.Gen.C66_arc",
    "Vvflow.Gen.C66_spacing",
    "Vvflow.Gen.C66_semicyl",
    "Vvflow.Gen.C66_parallelogram",
    "Vvflow.Gen.C66_savonius",
    "Vvflow.Gen.C66_gpj",
    "Vvflow.Gen.C66_box",
    "Vvflow.Gen.C66_plate",
    "Vvflow.Gen.C66_angle_counterexample",
    "Vvflow.Gen.C66_radii_counterexample",
    "Vvflow.Gen.C66_plate_ok",
    "Vvflow.Gen.C66_parallelogram_ok",
    "Vvflow.Gen.C66_cylinder"
   ],
   "note": "Proved for all shapes; the generators accept a parallelogram without angle and a plate without tangents (counterexamples)."
  },
  {
   "property": "C67",
   "status": "partial",
   "theorems": [
    "Vvflow.Plot.C67_window_partial",
    "Vvflow.Plot.C67_slope",
    "Vvflow.Plot.C67_refused",
    "Vvflow.Plot.C67_large_counterexample",
    "Vvflow.Plot.C67_height_counterexample",
    "Vvflow.Plot.C67_empty_counterexample",
    "Vvflow.Plot.C67_cells",
    "Vvflow.Plot.C67_nodes"
   ],
   "note": "Proved for requests whose pixel numbers fit an int; counterexamples: too large, height ignored, empty image."
  },
  {
   "property": "C68",
   "status": "proved",
   "theorems": [
    "Vvflow.Awk.C68_rows"
   ],
   "note": "Exact arithmetic; columns as numbers."
  },
  {
   "property": "C69",
   "status": "partial",
   "theorems": [
    "Vvflow.Awk.C69_avg_partial",
    "Vvflow.Awk.C69_sd_partial",
    "Vvflow.Awk.C69_sd_nonneg",
    "Vvflow.Awk.C69_zero_counterexample"
   ],
   "note": "Limits of zero are ignored (counterexample). Exact arithmetic."
  },
  {
   "property": "C70",
   "status": "partial",
   "theorems": [
    "Vvflow.Awk.C70_zeros_partial",
    "Vvflow.Awk.C70_between",
    "Vvflow.Awk.C70_outside_counterexample",
    "Vvflow.Awk.C70_missed_counterexample",
    "Vvflow.Awk.C70_zero_counterexample"
   ],
   "note": "Limits of zero are ignored; a sign change at a limit may be missed or reported outside (counterexamples)."
  },
  {
   "property": "C71",
   "status": "partial",
   "theorems": [
    "Vvflow.Awk.C71_even_partial",
    "Vvflow.Awk.C71_sorted",
    "Vvflow.Awk.C71_once",
    "Vvflow.Awk.C71_odd_counterexample",
    "Vvflow.Awk.C71_default_counterexample"
   ],
   "note": "Proved for even spans; for odd ones, and so by default, the amplitude printed is zero (counterexample for all data)."
  },
  {
   "property": "C72",
   "status": "proved",
   "theorems": [
    "Vvflow.Awk.C72_rows"
   ],
   "note": "Columns as numbers."
  },
  {
   "property": "C73",
   "status": "proved",
   "theorems": [
    "Vvflow.Forces.C73_forces",
    "Vvflow.Forces.C73_zero"
   ],
   "note": "Exact arithmetic; the divisors Re, pi, dt and segment lengths are non-zero by hypothesis."
  },
  {
   "property": "C74",
   "status": "partial",
   "theorems": [
    "Vvflow.Forces.C74_self",
    "Vvflow.Forces.C74_impulse",
    "Vvflow.Forces.C74_radii_counterexample"
   ],
   "note": "Self velocity, impulse and moment of any group with equal radii; C74_radii_counterexample shows that equal radii are needed."
  },
  {
   "property": "C75",
   "status": "partial",
   "theorems": [
    "Vvflow.Forces.C75_heat_counterexample",
    "Vvflow.Forces.C75_vortex_partial",
    "Vvflow.Forces.C75_middle_counterexample",
    "Vvflow.Forces.C75_heat_partial"
   ],
   "note": "Vortices: finite and directed unless the vortex is exactly at the middle of a near segment (C75_middle_counterexample: NaN). Heat: finite when the wall sum has the sign of the particle; otherwise the two terms of the denominator may cancel (C75_heat_counterexample)."
  },
  {
   "property": "C76",
   "status": "partial",
   "theorems": [
    "Vvflow.Body.C76_counterexample",
    "Vvflow.Body.C76_layer_found_partial"
   ],
   "note": "False for bodies of positive area: the box and disc of the body, not of the layer, reject the point."
  },
  {
   "property": "C77",
   "status": "partial",
   "theorems": [
    "Vvflow.Body.C77_counterexample",
    "Vvflow.Body.C77_slip_partial"
   ],
   "note": "False for mixed files: the flag of the previous line is kept."
  },
  {
   "property": "C78",
   "status": "partial",
   "theorems": [
    "Vvflow.Body.C78_counterexample",
    "Vvflow.Body.C78_even_odd_partial",
    "Vvflow.Body.C78_connected_partial",
    "Vvflow.Body.C78_far_partial"
   ],
   "note": "Holds for points at no corner's exact ordinate; counterexample in a notch between two tips."
  },
  {
   "property": "C79",
   "status": "proved",
   "theorems": [
    "Vvflow.Body.C79_shoelace",
    "Vvflow.Body.C79_start",
    "Vvflow.Body.C79_direction"
   ],
   "note": "Exact arithmetic."
  },
  {
   "property": "C80",
   "status": "proved",
   "theorems": [
    "Vvflow.Body.C80_triangle",
    "Vvflow.Body.C80_cut"
   ],
   "note": "Exact arithmetic."
  },
  {
   "property": "C81",
   "status": "proved",
   "theorems": [
    "Vvflow.Flow.C81_absorbed"
   ],
   "note": "Exact arithmetic."
  },
  {
   "property": "C82",
   "status": "proved",
   "theorems": [
    "Vvflow.Epsilon.C82_eps2h",
    "Vvflow.Epsilon.C82_h2"
   ],
   "note": "Exact arithmetic."
  },
  {
   "property": "C83",
   "status": "proved",
   "theorems": [
    "Vvflow.Epsilon.C83_vortex",
    "Vvflow.Epsilon.C83_heat",
    "Vvflow.Epsilon.C83_criterion"
   ],
   "note": "Exact arithmetic."
  },
  {
   "property": "C84",
   "status": "proved",
   "theorems": [
    "Vvflow.Flow.C84_crop"
   ],
   "note": "Exact arithmetic."
  },
  {
   "property": "C85",
   "status": "proved",
   "theorems": [
    "Vvflow.Forces.C85_far_field",
    "Vvflow.Forces.C85_velocity"
   ],
   "note": "Exact arithmetic; bodies at rest (the velocity of moving bodies is not modelled)."
  },
  {
   "property": "C86",
   "status": "proved",
   "theorems": [
    "Vvflow.Forces.C86_sink",
    "Vvflow.Forces.C86_sum"
   ],
   "note": "Exact arithmetic."
  },
  {
   "property": "C87",
   "status": "proved",
   "theorems": [
    "Vvflow.Forces.C87_friction"
   ],
   "note": "Exact arithmetic."
  },
  {
   "property": "C88",
   "status": "partial",
   "theorems": [
    "Vvflow.Slae.C88_force_direct",
    "Vvflow.Slae.C88_torque_direct",
    "Vvflow.Slae.C88_force_partial",
    "Vvflow.Slae.C88_torque_partial"
   ],
   "note": "Unconditional while some body moves or may move, in the first step and in collisions (`_direct`); with the stored inverse it needs the condition on hashes of C16; a body that is its own root is excluded."
  },
  {
   "property": "C89",
   "status": "partial",
   "theorems": [
    "Vvflow.Slae.C89_counterexample",
    "Vvflow.Slae.C89_exact",
    "Vvflow.Slae.C89_rigid_partial"
   ],
   "note": "The vertical velocity has an excess when the root turns and the body is displaced (C89_exact); counterexample."
  },
  {
   "property": "C90",
   "status": "proved",
   "theorems": [
    "Vvflow.Slae.C90_crossing",
    "Vvflow.Slae.C90_potential",
    "Vvflow.Slae.C90_closed",
    "Vvflow.Slae.C90_closed_dist",
    "Vvflow.Slae.C90_reverse"
   ],
   "note": "Over the reals, log and atan2 being the real functions."
  },
  {
   "property": "C91",
   "status": "partial",
   "theorems": [
    "Vvflow.Slae.C91_agree_partial",
    "Vvflow.Slae.C91_opposite",
    "Vvflow.Slae.C91_counterexample"
   ],
   "note": "Both forms agree unless both ends are within the core; there they have opposite signs."
  },
  {
   "property": "C92",
   "status": "partial",
   "theorems": [
    "Vvflow.Slae.C92_turning_direct",
    "Vvflow.Slae.C92_impermeable_direct",
    "Vvflow.Slae.C92_turning_partial",
    "Vvflow.Slae.C92_impermeable_partial"
   ],
   "note": "Unconditional while some body moves or may move, in the first step and in collisions (`_direct`); with the stored inverse it needs the condition on hashes of C16; attached layers of bodies that turn are on the other side of the equation."
  },
  {
   "property": "C93",
   "status": "partial",
   "theorems": [
    "Vvflow.Slae.C93_force_direct",
    "Vvflow.Slae.C93_torque_direct",
    "Vvflow.Slae.C93_force_partial",
    "Vvflow.Slae.C93_torque_partial"
   ],
   "note": "Unconditional while some body moves or may move, in the first step and in collisions (`_direct`); with the stored inverse it needs the condition on hashes of C16."
  },
  {
   "property": "C94",
   "status": "partial",
   "theorems": [
    "Vvflow.Isoline.C94_ends_iff_partial",
    "Vvflow.Isoline.C94_double_partial",
    "Vvflow.Isoline.C94_levels_partial",
    "Vvflow.Isoline.C94_member_partial",
    "Vvflow.Isoline.C94_infinite_counterexample",
    "Vvflow.Isoline.C94_rounding_counterexample"
   ],
   "note": "Proved in exact arithmetic; infinite limits and double arithmetic may never end (counterexamples). `C94_ends_iff_partial` decides the end for all accepted arguments in exact arithmetic; `C94_double_partial` gives it, and the levels with error bounds, in doubles for steps not smaller than 2^-51 of the limits (overflow not modelled)."
  },
  {
   "property": "C95",
   "status": "proved",
   "theorems": [
    "Vvflow.Isoline.C95_apart",
    "Vvflow.Isoline.C95_open_end",
    "Vvflow.Isoline.C95_border",
    "Vvflow.Isoline.C95_border_single"
   ],
   "note": "Ends of open lines lie on the border; a value equal to a level and gaps are excluded by the statement. C95_border_single is in single precision without conditions on the rounding."
  },
  {
   "property": "C96",
   "status": "partial",
   "theorems": [
    "Vvflow.Script.C96_read_partial",
    "Vvflow.Script.C96_write",
    "Vvflow.Script.C96_moved_counterexample",
    "Vvflow.Script.C96_cleared"
   ],
   "note": "As long as the list is not reallocated or cleared (counterexample)."
  },
  {
   "property": "C97",
   "status": "proved",
   "theorems": [
    "Vvflow.Script.C97_vec",
    "Vvflow.Script.C97_vec3",
    "Vvflow.Script.C97_obj"
   ],
   "note": "All values."
  },
  {
   "property": "C98",
   "status": "partial",
   "theorems": [
    "Vvflow.Script.C98_refused",
    "Vvflow.Script.C98_names",
    "Vvflow.Script.C98_others",
    "Vvflow.Script.C98_read_back_partial",
    "Vvflow.Script.C98_slip_counterexample",
    "Vvflow.Script.C98_wrap_counterexample"
   ],
   "note": "Integers outside 32 bits are wrapped; slip flags of a body without segments are undefined (counterexamples)."
  },
  {
   "property": "C99",
   "status": "proved",
   "theorems": [
    "Vvflow.Gen.C99_pieces",
    "Vvflow.Gen.C99_cylinder",
    "Vvflow.Gen.C99_cylinder_dl",
    "Vvflow.Gen.C99_semicyl",
    "Vvflow.Gen.C99_savonius",
    "Vvflow.Gen.C99_parallelogram",
    "Vvflow.Gen.C99_plate"
   ],
   "note": "Over the reals."
  },
  {
   "property": "C100",
   "status": "proved",
   "theorems": [
    "Vvflow.Gen.C100_ends",
    "Vvflow.Gen.C100_corners"
   ],
   "note": "Over the reals."
  },
  {
   "property": "C101",
   "status": "proved",
   "theorems": [
    "Vvflow.Gen.C101_plate"
   ],
   "note": "Over the reals."
  },
  {
   "property": "C102",
   "status": "proved",
   "theorems": [
    "Vvflow.Gen.C102_noslip",
    "Vvflow.Gen.C102_plate",
    "Vvflow.Gen.C102_gpj",
    "Vvflow.Gen.C102_box"
   ],
   "note": "Over the reals."
  },
  {
   "property": "C103",
   "status": "partial",
   "theorems": [
    "Vvflow.Plot.C103_frame",
    "Vvflow.Plot.C103_nobody_counterexample"
   ],
   "note": "A body frame without bodies is undefined (counterexample)."
  },
  {
   "property": "C104",
   "status": "proved",
   "theorems": [
    "Vvflow.Xfield.C104_nodes",
    "Vvflow.Xfield.C104_order",
    "Vvflow.Xfield.C104_velocity",
    "Vvflow.Xfield.C104_stream",
    "Vvflow.Xfield.C104_vorticity",
    "Vvflow.Xfield.C104_pressure"
   ],
   "note": "The tree, the test for points inside bodies and the distances to walls are parameters (Engine). Exact arithmetic; map values are not rounded to float."
  },
  {
   "property": "C105",
   "status": "partial",
   "theorems": [
    "Vvflow.Xfield.C105_pressure_counterexample",
    "Vvflow.Xfield.C105_velocity",
    "Vvflow.Xfield.C105_stream",
    "Vvflow.Xfield.C105_vorticity_partial",
    "Vvflow.Xfield.C105_pressure_partial"
   ],
   "note": "Velocity and stream function in full. Vorticity and pressure maps add the circulation of the segments to the caller's bodies (shared between copies), so that a second pressure map differs: exact amount in C105_pressure_partial."
  },
  {
   "property": "C106",
   "status": "partial",
   "theorems": [
    "Vvflow.Xfield.C106_velocity",
    "Vvflow.Xfield.C106_stream",
    "Vvflow.Xfield.C106_pressure",
    "Vvflow.Xfield.C106_letters",
    "Vvflow.Xfield.C106_nobody_counterexample",
    "Vvflow.Xfield.C106_again_counterexample"
   ],
   "note": "In full for the first evaluation; a second one after choosing another frame changes nothing, and a body frame without bodies is undefined."
  },
  {
   "property": "C107",
   "status": "partial",
   "theorems": [
    "Vvflow.Xfield.C107_velocity_partial",
    "Vvflow.Xfield.C107_agree_partial",
    "Vvflow.Xfield.C107_surface_counterexample",
    "Vvflow.Xfield.C107_point",
    "Vvflow.Xfield.C107_node"
   ],
   "note": "The stream function is proved to have the velocity of the flow as derivative. The velocity map agrees without bodies and sources; with bodies it lacks the circulation of segments without slip (counterexample)."
  },
  {
   "property": "C108",
   "status": "partial",
   "theorems": [
    "Vvflow.Xfield.C108_linear_partial",
    "Vvflow.Xfield.C108_moving_partial",
    "Vvflow.Xfield.C108_translation",
    "Vvflow.Xfield.C108_rotation_counterexample"
   ],
   "note": "Exact for bodies that do not turn; for every turning body there is an excess 2 o dl per near segment (a wrong sign in the code)."
  },
  {
   "property": "C109",
   "status": "proved",
   "theorems": [
    "Vvflow.Xfield.C109_flux",
    "Vvflow.Xfield.C109_circulation"
   ],
   "note": "Exact arithmetic, all closed contours."
  },
  {
   "property": "C110",
   "status": "partial",
   "theorems": [
    "Vvflow.Xfield.C110_edges",
    "Vvflow.Xfield.C110_loop",
    "Vvflow.Xfield.C110_right_counterexample"
   ],
   "note": "Proved unless a source is to the right of the window (counterexample). Node numbers below 2^16; gaps are not rounded to float."
  },
  {
   "property": "C111",
   "status": "partial",
   "theorems": [
    "Vvflow.Xfield.C111_bell",
    "Vvflow.Xfield.C111_total",
    "Vvflow.Xfield.C111_wall_counterexample",
    "Vvflow.Xfield.C111_lone_counterexample",
    "Vvflow.Xfield.C111_far"
   ],
   "note": "False at walls (one half without any vorticity) and for a lone vortex without bodies (not drawn)."
  },
  {
   "property": "C112",
   "status": "partial",
   "theorems": [
    "Vvflow.Xfield.C112_undisturbed",
    "Vvflow.Xfield.C112_bernoulli",
    "Vvflow.Xfield.C112_boost",
    "Vvflow.Xfield.C112_galilean_partial",
    "Vvflow.Xfield.C112_smoothing_counterexample",
    "Vvflow.Xfield.C112_lone",
    "Vvflow.Xfield.C112_bodies",
    "Vvflow.Xfield.C112_birth"
   ],
   "note": "Bernoulli with and without bodies (C112_bodies, C112_birth). Independence of the observer is proved without bodies and without smoothing (counterexample with smoothing)."
  },
  {
   "property": "C113",
   "status": "partial",
   "theorems": [
    "Vvflow.Xtract.C113_info_counterexample",
    "Vvflow.Xtract.Examples.C113_shift_counterexample",
    "Vvflow.Xtract.Examples.C113_digits_counterexample",
    "Vvflow.Xtract.C113_table",
    "Vvflow.Xtract.C113_words_partial",
    "Vvflow.Xtract.C113_refused",
    "Vvflow.Xtract.C113_list"
   ],
   "note": "Reading by white space only for datasets of equal length (shift counterexample); seven digits do not tell all floats apart (counterexample); with -i datasets of state files are not printed (counterexample)."
  },
  {
   "property": "C114",
   "status": "partial",
   "theorems": [
    "Vvflow.Xtract.C114_shown_partial",
    "Vvflow.Xtract.C114_streak_counterexample",
    "Vvflow.Xtract.C114_unlabelled_counterexample",
    "Vvflow.Xtract.C114_saved_partial"
   ],
   "note": "Labels are nonempty and consist of letters, digits and underscores; expressions hold no quotes or line breaks; at most 100 bodies in a saved file. Streak lists are counted under each other's names, unlabelled bodies are undefined behaviour (counterexamples)."
  },
  {
   "property": "C115",
   "status": "partial",
   "theorems": [
    "Vvflow.Accuracy.Examples.C115_outside_counterexample",
    "Vvflow.Accuracy.C115_particle",
    "Vvflow.Accuracy.C115_point_partial"
   ],
   "note": "Exact arithmetic over the reals and trees built with the far factor of the simulation. For points only within the box of the node found by the lookup; between boxes the radius of a close vortex can be ignored (counterexample)."
  },
  {
   "property": "C116",
   "status": "partial",
   "theorems": [
    "Vvflow.Sensors.C116_resume_counterexample",
    "Vvflow.Sensors.C116_time_counterexample",
    "Vvflow.Sensors.C116_comma_counterexample",
    "Vvflow.Sensors.C116_remark_counterexample",
    "Vvflow.Sensors.C116_positions",
    "Vvflow.Sensors.C116_lines",
    "Vvflow.Sensors.C116_none"
   ],
   "note": "Clock in range; the number of steps is that of C07. Resumed runs repeat lines, different times can print alike, commas and remarks silently end the list of sensors (counterexamples). Infinite and hexadecimal positions are not modelled."
  },
  {
   "property": "C117",
   "status": "partial",
   "theorems": [
    "Vvflow.Legacy.C117_contents",
    "Vvflow.Legacy.C117_layout",
    "Vvflow.Legacy.C117_foreign",
    "Vvflow.Legacy.C117_version",
    "Vvflow.Legacy.C117_empty_counterexample",
    "Vvflow.Legacy.C117_kutta_counterexample",
    "Vvflow.Legacy.C117_truncated_counterexample",
    "Vvflow.Legacy.C117_contour_counterexample",
    "Vvflow.Legacy.C117_caption_counterexample",
    "Vvflow.Legacy.C117_slip_counterexample"
   ],
   "note": "The contents, independence of the layout and the refusals are proved. False for damaged files: an empty file and a file cut off inside a list load without complaint, a contour without its body and a caption of 64 characters are undefined behaviour (counterexamples). The segment of the Kutta condition is lost, and slip of other segments depends on the order. Values derived from the contour and compilation of scripts are elsewhere (Body, Eval)."
  },
  {
   "property": "C118",
   "status": "partial",
   "theorems": [
    "Vvflow.Own.C118_lifetime",
    "Vvflow.Own.C118_valid",
    "Vvflow.Own.C118_safe",
    "Vvflow.Own.C118_member_partial",
    "Vvflow.Own.C118_member_counterexample",
    "Vvflow.Own.C118_refused",
    "Vvflow.Own.C118_root",
    "Vvflow.Own.C118_frame",
    "Vvflow.Own.C118_calls",
    "Vvflow.Own.C118_leak"
   ],
   "note": "Holds for bodies. Pointers to members (b.holder_pos, the corners of b:totable()) do not keep their body: using one after its body is gone is undefined (counterexample)."
  },
  {
   "property": "C119",
   "status": "partial",
   "theorems": [
    "Vvflow.Params.C119_refused",
    "Vvflow.Params.C119_names",
    "Vvflow.Params.C119_unknown",
    "Vvflow.Params.C119_number",
    "Vvflow.Params.C119_caption",
    "Vvflow.Params.C119_expression",
    "Vvflow.Params.C119_gravity",
    "Vvflow.Params.C119_pair_partial",
    "Vvflow.Params.C119_fraction_partial",
    "Vvflow.Params.C119_seconds_partial",
    "Vvflow.Params.C119_time_refused",
    "Vvflow.Params.C119_infinite_counterexample",
    "Vvflow.Params.C119_typed",
    "Vvflow.Params.C119_read"
   ],
   "note": "Doubles are NaN, infinities and rationals. Partial: times need integers of 32 bits, and seconds at most nine decimals in exact arithmetic (C04 and C05 treat the rest). Counterexample: assigning an infinite time, meant as never, is undefined behaviour."
  },
  {
   "property": "C120",
   "status": "partial",
   "theorems": [
    "Vvflow.Derived.C120_slip_counterexample",
    "Vvflow.Derived.C120_corner_counterexample",
    "Vvflow.Derived.C120_geometry_partial",
    "Vvflow.Derived.C120_settled_partial",
    "Vvflow.Derived.C120_effect",
    "Vvflow.Derived.C120_off",
    "Vvflow.Derived.C120_moves",
    "Vvflow.Derived.C120_values"
   ],
   "note": "Exact arithmetic. Counterexamples: after b.slip = true the segments do not act on the flow until the body was moved or loaded again, so in the first step they carry nothing along; b:totable() gives references to the corners, and after writing into one the area and the segments stay those of the old contour until the next motion."
  },
  {
   "property": "C121",
   "status": "partial",
   "theorems": [
    "Vvflow.Options.C121_colorbox_counterexample",
    "Vvflow.Options.C121_integer_counterexample",
    "Vvflow.Options.C121_point_counterexample",
    "Vvflow.Options.C121_rest_counterexample",
    "Vvflow.Options.C121_accepted",
    "Vvflow.Options.C121_refused_partial",
    "Vvflow.Options.C121_arguments",
    "Vvflow.Options.C121_values",
    "Vvflow.Options.C121_switches",
    "Vvflow.Options.C121_map",
    "Vvflow.Options.C121_order_partial",
    "Vvflow.Options.C121_output",
    "Vvflow.Options.C121_levels_partial",
    "Vvflow.Options.C121_number"
   ],
   "note": "Partial: `--no-colorbox` before -G, -P or -U is overridden, so order matters there; an integer argument beyond the range of int is undefined behaviour instead of a refusal; `--P a,a` is taken and `-S` on a fluid at rest is possible, but both end the program with an exception because the step of the isolines is zero. Each failure has a counterexample theorem. getopt_long is trusted; hexadecimal numbers and the --ttree switches are left out."
  },
  {
   "property": "C122",
   "status": "partial",
   "theorems": [
    "Vvflow.Draw.C122_label_counterexample",
    "Vvflow.Draw.C122_colour_counterexample",
    "Vvflow.Draw.C122_unnamed_counterexample",
    "Vvflow.Draw.C122_empty_counterexample",
    "Vvflow.Draw.C122_layers_partial",
    "Vvflow.Draw.C122_bodies",
    "Vvflow.Draw.C122_output_partial",
    "Vvflow.Draw.C122_output_counterexample"
   ],
   "note": "C122_layers_partial asks for labels that are distinct words, not the name of another data set or a quoted word of the script, and for a command line without single quotes; the counterexamples show two bodies of the same label, a body labelled like a colour of the script, a label equal to the name made for a body without one, a body without points (undefined) and an output file that was longer (its end stays, as it is opened without O_TRUNC). C122_bodies says when a plot is made at all. Layers of the tree and the text before the command plot are given from outside."
  },
  {
   "property": "C123",
   "status": "partial",
   "theorems": [
    "Vvflow.Draw.C123_name_counterexample",
    "Vvflow.Draw.C123_archive_partial",
    "Vvflow.Draw.C123_replot_partial"
   ],
   "note": "C123_archive_partial and C123_replot_partial ask that no file is called plot.gp; C123_name_counterexample shows a body of that label, whose contour is appended to the script. libarchive is trusted to return the entries that were written."
  },
  {
   "property": "C124",
   "status": "partial",
   "theorems": [
    "Vvflow.Getopt.C124_flow",
    "Vvflow.Getopt.C124_xtract",
    "Vvflow.Getopt.C124_plot",
    "Vvflow.Getopt.C124_plot_meaning",
    "Vvflow.Getopt.C124_names",
    "Vvflow.Getopt.C124_help",
    "Vvflow.Getopt.C124_refused",
    "Vvflow.Getopt.C124_dashes",
    "Vvflow.Getopt.C124_dash_counterexample"
   ],
   "note": "Proved for all three programs: every line written according to the table is read as written (C124_flow, C124_xtract, C124_plot, C124_plot_meaning, C124_names), help (C124_help), everything taken is so written (C124_refused), words after two dashes are handed on unchanged (C124_dashes). C124_dash_counterexample: an argument of a script that begins with a dash is taken for an option of vvflow: a negative number is refused, -v shows the version."
  },
  {
   "property": "C125",
   "status": "partial",
   "theorems": [
    "Vvflow.Getopt.C125_results_partial",
    "Vvflow.Getopt.C125_re_counterexample",
    "Vvflow.Getopt.C125_script",
    "Vvflow.Getopt.C125_codes"
   ],
   "note": "C125_results_partial: for Reynolds numbers that are not at most zero, code 0 exactly when the simulation was done; a file that cannot be loaded ends the program by an uncaught exception. C125_script, C125_codes: codes of scripts and command lines. C125_re_counterexample: with a Reynolds number of zero (or less) nothing is simulated and the code is 0, because the -1 returned by simulate is not an error for Lua."
  },
  {
   "property": "C126",
   "status": "partial",
   "theorems": [
    "Vvflow.Lists.C126_text",
    "Vvflow.Lists.C126_text_missing",
    "Vvflow.Lists.C126_text_counterexample",
    "Vvflow.Lists.C126_binary",
    "Vvflow.Lists.C126_binary_counterexample",
    "Vvflow.Lists.C126_append",
    "Vvflow.Lists.C126_append_counterexample",
    "Vvflow.Lists.C126_clear",
    "Vvflow.Lists.C126_index",
    "Vvflow.Lists.C126_index_nil",
    "Vvflow.Lists.C126_pairs",
    "Vvflow.Lists.C126_members"
   ],
   "note": "Fails in three ways. The result of load_list_bin is dropped, so a missing binary file is no error. A text file is read up to the first word that is not a number, a binary file up to its last complete record, and the rest is dropped silently. A refused append keeps the objects before the wrong argument."
  },
  {
   "property": "C127",
   "status": "partial",
   "theorems": [
    "Vvflow.Body.C127_clockwise_partial",
    "Vvflow.Body.C127_counterexample",
    "Vvflow.Body.C127_file_partial",
    "Vvflow.Body.C127_shed"
   ],
   "note": "Fails: the code does the opposite of the manual for every convex contour. The proved theorems state what the order means in the code. Partial: contours that are not convex, and points at the exact ordinate of a corner, are not covered."
  },
  {
   "property": "C128",
   "status": "partial",
   "theorems": [
    "Vvflow.Restart.C128_step",
    "Vvflow.Restart.C128_run",
    "Vvflow.Restart.C128_counterexample"
   ],
   "note": "Composes C20, C31, C32 and C43 over the phases of the main loop. Counterexample: if all bodies have the Kutta condition, no equation contains the circulation at infinity and the balance is lost in a step. The condition on hashes of C16 is part of `Call`."
  },
  {
   "property": "C129",
   "status": "partial",
   "theorems": [
    "Vvflow.Gen.C129_cylinder",
    "Vvflow.Gen.C129_circle",
    "Vvflow.Gen.C129_parallelogram",
    "Vvflow.Gen.C129_semicyl",
    "Vvflow.Gen.C129_savonius",
    "Vvflow.Gen.C129_gpj",
    "Vvflow.Gen.C129_box",
    "Vvflow.Gen.C129_coarse_counterexample",
    "Vvflow.Gen.C129_gap_counterexample",
    "Vvflow.Gen.C129_plate",
    "Vvflow.Gen.C129_plate_gap",
    "Vvflow.Gen.C129_ellipse_partial",
    "Vvflow.Gen.C129_inside_partial"
   ],
   "note": "Partial: for ellipses the area is that of an inscribed polygon exactly, and the bounds need angles that increase (proved for circles only); points at the exact ordinate of a corner of a cylinder are excluded. With a spacing longer than twice a side the side and a corner are lost (C129_coarse_counterexample: a rectangle of half the area asked for). A plate cut at stop < 1 whose gap is longer than the part that is left has a negative area and no message is given (C129_gap_counterexample)."
  },
  {
   "property": "C130",
   "status": "partial",
   "theorems": [
    "Vvflow.Program.C130_real",
    "Vvflow.Shift.C130_radii",
    "Vvflow.Shift.C130_nodes",
    "Vvflow.Shift.C130_kutta_counterexample",
    "Vvflow.Shift.C130_friction_counterexample",
    "Vvflow.Shift.C130_crop_counterexample",
    "Vvflow.Shift.C130_crop_partial",
    "Vvflow.Shift.C130_motion",
    "Vvflow.Shift.C130_shed",
    "Vvflow.Shift.C130_heat",
    "Vvflow.Shift.C130_ink",
    "Vvflow.Shift.C130_zero",
    "Vvflow.Shift.C130_bodies",
    "Vvflow.Shift.C130_system_partial",
    "Vvflow.Shift.C130_rigid",
    "Vvflow.Shift.C130_force",
    "Vvflow.Shift.C130_sure",
    "Vvflow.Shift.C130_rest",
    "Vvflow.Shift.C130_step",
    "Vvflow.Shift.C130_run",
    "Vvflow.Shift.C130_tree",
    "Vvflow.Shift.C130_diffusion",
    "Vvflow.Shift.C130_diffusionH",
    "Vvflow.Shift.C130_friction",
    "Vvflow.Shift.C130_forces",
    "Vvflow.Shift.C130_convect",
    "Vvflow.Shift.C130_particle",
    "Vvflow.Shift.C130_velocity",
    "Vvflow.Shift.C130_pressure",
    "Vvflow.Shift.C130_stream"
   ],
   "note": "The pieces of a step are proved to commute with a displacement one by one, and joined: everything a step does after the linear system, with bodies (C130_rest), whole runs without bodies (C130_step, C130_run; the edge beyond which heat is removed is displaced too), and whole runs with bodies all of whose degrees of freedom are prescribed and that are not mounted on each other (C130_bodies, also between machines; the systems of the run are asked to have one solution, or, in C130_sure, LAPACK to fail for singular ones). The linear system has the same solutions if circulations are balanced and the friction has no moment along the displacement (C130_system_partial); for rigid unmounted bodies without conditions, with the change of forces given exactly (C130_rigid, C130_force). Counterexamples: lift of a Kutta body, free rotation under friction, cropping of heat. Runs with springs are not covered, since the force they feel depends on the origin. C130_real is C130_run for the program with the functions of analysis (module Program), all hypotheses about functions discharged."
  },
  {
   "property": "C131",
   "status": "partial",
   "theorems": [
    "Vvflow.Interp.C131_independent",
    "Vvflow.Interp.C131_functions",
    "Vvflow.Interp.C131_names_counterexample",
    "Vvflow.Interp.C131_leftover_counterexample",
    "Vvflow.Interp.C131_refused_counterexample",
    "Vvflow.Interp.C131_message_counterexample",
    "Vvflow.Interp.C131_own",
    "Vvflow.Interp.C131_defined_partial",
    "Vvflow.Interp.C131_value_partial",
    "Vvflow.Interp.C131_copy_partial"
   ],
   "note": "Proved: ownership of interpreters, absence of undefined behaviour (if errors carry a text), independence, values and copies of expressions that use no variables (refinement to the model of C12). False: variables set by an earlier or refused text stay, so a text may be in force that a copy or a saved file refuses; error() without a text is undefined; the constants 1_pi, 2_pi and 2_sqrtpi are not names of Lua and cannot be used."
  },
  {
   "property": "C132",
   "status": "partial",
   "theorems": [
    "Vvflow.Program.C132_real_partial",
    "Vvflow.Scale.C132_diffusion_partial",
    "Vvflow.Scale.C132_diffusionH_partial",
    "Vvflow.Scale.C132_friction",
    "Vvflow.Scale.C132_forces",
    "Vvflow.Scale.C132_radii_partial",
    "Vvflow.Scale.C132_merge_partial",
    "Vvflow.Scale.C132_nodes",
    "Vvflow.Scale.C132_threshold_counterexample",
    "Vvflow.Scale.C132_merge_counterexample",
    "Vvflow.Scale.C132_coincident_counterexample",
    "Vvflow.Scale.C132_temperature_counterexample",
    "Vvflow.Scale.C132_wall_counterexample",
    "Vvflow.Scale.C132_slow_counterexample",
    "Vvflow.Scale.C132_big",
    "Vvflow.Scale.C132_motion_partial",
    "Vvflow.Scale.C132_shed_partial",
    "Vvflow.Scale.C132_heat",
    "Vvflow.Scale.C132_crop",
    "Vvflow.Scale.C132_ink",
    "Vvflow.Scale.C132_zero",
    "Vvflow.Scale.C132_run_partial",
    "Vvflow.Scale.C132_free_partial",
    "Vvflow.Scale.C132_system",
    "Vvflow.Scale.C132_sure_partial",
    "Vvflow.Scale.C132_rest_partial",
    "Vvflow.Scale.C132_tree",
    "Vvflow.Scale.C132_convect",
    "Vvflow.Scale.C132_particle_partial",
    "Vvflow.Scale.C132_velocity_partial",
    "Vvflow.Scale.C132_pressure",
    "Vvflow.Scale.C132_stream_partial",
    "Vvflow.Scale.C132_vorticity_partial"
   ],
   "note": "Proved: the system of equations (iff, all rows, all collisions), tree, near nodes, convective velocities, friction, forces, heat shedding, cropping, pressure; with the hypotheses named (weak particles on the same side of the threshold, bodies not slower than 1e-10, no coincident vortices, points away from walls) also motion, vortex shedding, diffusion, velocity, stream function, vorticity; merging without bodies. Counterexamples for each hypothesis: threshold of weak particles, merging criterion near bodies, coincident vortices, temperature near walls, wall term of vorticity maps, slow bodies. Exact arithmetic (the tree also with a rounding that commutes with the unit of length). Whole runs: C132_run_partial (two runs of n steps with bodies held, prescribed, on springs or striking limits, inviscid, on any two machines; C132_sure_partial derives that the systems have one solution from LAPACK failing for singular ones) and C132_free_partial (without bodies, viscous too; the second run is shown to exist), given that no threshold or coincidence falls between the two systems of units (Neutral) and that the two clocks show the same time (clocks derives it from C01 and C02). C132_real_partial is C132_free_partial for the program with the functions of analysis and the same largest double in both runs (by C143); the radius of a lone particle (smallest double) is still taken in units."
  },
  {
   "property": "C133",
   "status": "proved",
   "theorems": [
    "Vvflow.View.C133_meaning",
    "Vvflow.View.C133_degrees"
   ],
   "note": "Refinement: memory as a sequence of numbers, userdata as kind and address, members by offset, against records that are named. What is pointed to is assumed to exist (C96, C118). Tables are not changed after they are made; formatting of numbers by tostring is not modelled."
  },
  {
   "property": "C134",
   "status": "partial",
   "theorems": [
    "Vvflow.Par.C134_velocities",
    "Vvflow.Par.C134_velocities_same",
    "Vvflow.Par.C134_velocities_run",
    "Vvflow.Par.C134_failure",
    "Vvflow.Par.C134_velocity_map",
    "Vvflow.Par.C134_stream_map",
    "Vvflow.Par.C134_vorticity_map",
    "Vvflow.Par.C134_pressure_map",
    "Vvflow.Par.C134_maps_run",
    "Vvflow.Par.C134_gaps_orders",
    "Vvflow.Par.C134_gaps_counterexample",
    "Vvflow.Par.C134_transpose",
    "Vvflow.Par.C134_writeback",
    "Vvflow.Par.C134_matrix_run"
   ],
   "note": "Iterations are programs of single accesses that take turns in any order; ownership of locations gives the result, race freedom and termination. Missing: the gaps of the stream function are recorded in the order threads come (C134_gaps_orders: every order happens) and isolines add them in single precision in that order, so isolines near three or more sources can differ between runs (C134_gaps_counterexample). Sums are exact; bodies, sources, tree and mesh are written by no loop and are parameters. The loop that assembles the matrix is C18."
  },
  {
   "property": "C135",
   "status": "partial",
   "theorems": [
    "Vvflow.Xfield.C135_curve",
    "Vvflow.Xfield.C135_line",
    "Vvflow.Xfield.C135_contour",
    "Vvflow.Xfield.C135_recipe_counterexample"
   ],
   "note": "`C135_curve`: for every smooth curve that avoids the cuts. `C135_line`: for every straight line, with the sources whose cut (the horizontal ray to the left of the source) it crosses. `C135_contour`: closed polygons. `C135_recipe_counterexample`: the recipe of the manual, taken literally, is wrong by the strength of a source to the right of the line. Lines that cross the lines from segments of moving bodies to the centre of mass are excluded; for a body that does not see all of its surface from the centre of mass these run through the fluid."
  },
  {
   "property": "C136",
   "status": "partial",
   "theorems": [
    "Vvflow.Turn.C136_geometry",
    "Vvflow.Turn.C136_move",
    "Vvflow.Turn.C136_radii",
    "Vvflow.Turn.C136_counterexample_mount",
    "Vvflow.Turn.C136_counterexample_layer",
    "Vvflow.Turn.C136_counterexample_crop",
    "Vvflow.Turn.C136_counterexample_corner",
    "Vvflow.Turn.C136_velocity",
    "Vvflow.Turn.C136_direct",
    "Vvflow.Turn.C136_pressure",
    "Vvflow.Turn.C136_stream",
    "Vvflow.Turn.C136_stream_sources",
    "Vvflow.Turn.C136_shed",
    "Vvflow.Turn.C136_heat",
    "Vvflow.Turn.C136_ink",
    "Vvflow.Turn.C136_zero",
    "Vvflow.Turn.C136_motion",
    "Vvflow.Turn.C136_inside",
    "Vvflow.Turn.C136_run_partial",
    "Vvflow.Turn.C136_system",
    "Vvflow.Turn.C136_solved",
    "Vvflow.Turn.C136_diffusion",
    "Vvflow.Turn.C136_diffusionH",
    "Vvflow.Turn.C136_friction",
    "Vvflow.Turn.C136_forces",
    "Vvflow.Turn.C136_convect"
   ],
   "note": "Velocity.lean (diffusion, friction, forces, convection), Field.lean (velocity, pressure, stream function), Body.lean (geometry, rigid motion), Inside.lean (point in contour), Flow.lean (motion, shedding), Slae.lean (the system), Epsilon.lean (radii and mergers). Counterexamples: C136_counterexample_mount (the equation of a mounted, displaced body takes the arm to the holder in x and to the axis in y), C136_counterexample_layer, C136_counterexample_crop, C136_counterexample_corner. The boxes of the tree follow the axes, so which pairs are near is an input of these theorems. Where the tree is one node they are joined to whole runs without bodies, viscous or not: C136_run_partial (Run.lean). What the solver returns in turned axes: C136_solved."
  },
  {
   "property": "C137",
   "status": "partial",
   "theorems": [
    "Vvflow.Body.C137_whole",
    "Vvflow.Body.C137_inside_partial",
    "Vvflow.Body.C137_counterexample"
   ],
   "note": "C137_whole: the winding number is an integer. C137_inside_partial: parity of it decides. C137_counterexample: at the exact ordinate of a corner, for a body with its fluid inside, the answer is wrong."
  },
  {
   "property": "C138",
   "status": "partial",
   "theorems": [
    "Vvflow.Order.C138_counterexample_first",
    "Vvflow.Order.C138_counterexample_overlap",
    "Vvflow.Order.C138_counterexample_tie",
    "Vvflow.Order.C138_counterexample_merge",
    "Vvflow.Order.C138_convect",
    "Vvflow.Order.C138_diffusion",
    "Vvflow.Order.C138_forces",
    "Vvflow.Order.C138_motion_partial",
    "Vvflow.Order.C138_shed",
    "Vvflow.Order.C138_heat_partial",
    "Vvflow.Order.C138_system_partial",
    "Vvflow.Order.C138_solved_partial"
   ],
   "note": "C138_system_partial: any renaming of the bodies carries solutions of the system to solutions, if the scene is balanced or the first steady body is kept. C138_solved_partial: so what the solver returns is the same for every body. C138_motion_partial: move_and_clean. C138_heat_partial: heat shedding without bodies of constant temperature. Counterexamples: the first body takes up the circulation at infinity; overlapping bodies; stops reached at the same moment; merging. Exact arithmetic: with rounding, sums in another order differ in the last digits."
  },
  {
   "property": "C139",
   "status": "proved",
   "theorems": [
    "Vvflow.Program.C139_real",
    "Vvflow.Sim.C139_gather",
    "Vvflow.Sim.C139_velocity",
    "Vvflow.Sim.C139_few",
    "Vvflow.Sim.C139_nbody",
    "Vvflow.Sim.C139_progress",
    "Vvflow.Sim.C139_solved",
    "Vvflow.Sim.C139_still",
    "Vvflow.Sim.C139_circulation",
    "Vvflow.Sim.C139_surface_radii",
    "Vvflow.Sim.C139_clean",
    "Vvflow.Sim.C139_count",
    "Vvflow.Sim.C139_radii",
    "Vvflow.Sim.C139_surface",
    "Vvflow.Sim.C139_cores",
    "Vvflow.Sim.C139_surface_always"
   ],
   "note": "The step as one computable function: tree, solver, release, radii, convection, diffusion, motion. Exact arithmetic. The surface (C139_surface_always, C139_surface with viscosity, C139_surface_radii for given radii): the segment whose equation is replaced by the one for the total circulation is left out; in runs with bodies whose segments all have a length of at least some d > 0, every radius is at least d/3 after every step (C139_cores), viscous or not. For bodies held still the hash of their one matrix must not be 0 (hypothesis in Begins; see C93). Runs without bodies and viscosity never get stuck (C139_progress). C139_real states the motion of point vortices with the true formulas."
  },
  {
   "property": "C140",
   "status": "partial",
   "theorems": [
    "Vvflow.Passive.C140_far_counterexample",
    "Vvflow.Passive.C140_radius_counterexample",
    "Vvflow.Passive.C140_step_partial",
    "Vvflow.Passive.C140_run_partial"
   ],
   "note": "Not so in general: ink takes part in building the tree. C140_far_counterexample: sixteen particles of ink divide a node, and vortices are then summed in groups. C140_radius_counterexample: with a body, a single particle moves the middle of the node, from which the nearest segment is sought for the radii. Proved for runs without bodies in which the particles are few and close enough for one node, with and without viscosity."
  },
  {
   "property": "C141",
   "status": "proved",
   "theorems": [
    "Vvflow.Sim.C141_run",
    "Vvflow.Sim.C141_held",
    "Vvflow.Sim.C141_sure"
   ],
   "note": "Numbers are exact, so sums that threads form in different orders are equal; rounding is outside.  C141_sure asks of the direct solver of one machine that it returns a solution only when there is no other (`Slae.Sure`, shown for exact arithmetic by `sure_exact`); that each system of the run has one solution then follows from its having been solved.  C141_run asks for one solution instead (`Regular`); for bodies held still this follows from one matrix (C141_held)."
  },
  {
   "property": "C142",
   "status": "proved",
   "theorems": [
    "Vvflow.Sim.C142_apart",
    "Vvflow.Sim.C142_solver",
    "Vvflow.Sim.C142_sizes"
   ],
   "note": "The parameters vvflow passes to the tree, exact arithmetic, coordinates up to the largest number. C142_apart for segments and all particles, C142_solver for the solver's equations, C142_sizes for the cells. What the grouping costs is C115."
  },
  {
   "property": "C143",
   "status": "proved",
   "theorems": [
    "Vvflow.Sentinel.C143_step",
    "Vvflow.Sentinel.C143_run"
   ],
   "note": "C143_run equates whole runs with two choices of these numbers, as optional results, so a run that gets stuck does so with both. Coordinates of cells are taken without rounding to float (hypothesis hfl). That the flow stays within m is asked of the run with the first choice only (Stays); Examples compute it for two runs, and show a number that is too small and changes the radii."
  },
  {
   "property": "C144",
   "status": "proved",
   "theorems": [
    "Vvflow.Whole.C144_steps",
    "Vvflow.Whole.C144_ends",
    "Vvflow.Whole.C144_free"
   ],
   "note": "The loop of C06 and C07 around the step of C139. C144_ends and C144_free take the range of the clock as in C07, C144_free what C139_progress takes. Restarts: C11_program_partial; that radii of the step before do not count is proved for flows with bodies too (interact_bare), but circulations do depend on them."
  },
  {
   "property": "C145",
   "status": "proved",
   "theorems": [
    "Vvflow.Profile.C145_same",
    "Vvflow.Profile.C145_records",
    "Vvflow.Profile.C145_profiles",
    "Vvflow.Profile.C145_columns"
   ],
   "note": "For the program of C144 with the log of C09, numbers of a linearly ordered field. The velocity of moving bodies is a parameter that must not read the sums; the one of the code does not (Profile.blind_moving)."
  },
  {
   "property": "C146",
   "status": "partial",
   "theorems": [
    "Vvflow.Tow.C146_velocity_partial",
    "Vvflow.Tow.C146_damping_counterexample",
    "Vvflow.Tow.C146_drag_counterexample",
    "Vvflow.Tow.C146_free",
    "Vvflow.Tow.C146_system_partial",
    "Vvflow.Tow.C146_solved_partial"
   ],
   "note": "Runs of vortices and ink, viscous or not, are exactly Galilean invariant (C146_free). With bodies the system of equations is (C146_system_partial), except with dampers: C146_damping_counterexample holds for every damped body. What the solver returns: C146_solved_partial. The velocity of the fluid is within an explicit bound (C146_velocity_partial) and not exactly (C146_drag_counterexample). Not covered: steps in which a stop is hit; heat, whose far edge is fixed."
  },
  {
   "property": "C147",
   "status": "partial",
   "theorems": [
    "Vvflow.Probe.Examples.C147_lag_counterexample",
    "Vvflow.Probe.C147_ink_partial",
    "Vvflow.Probe.C147_near"
   ],
   "note": "C147_ink_partial: the bound, for every step of every run in exact arithmetic with everything within the largest number. C147_near: equality while the tree is one node. C147_lag_counterexample: a vortex at distance 100 and two drops in one node; the sensor shows 1/100, the drop goes 396/39601."
  },
  {
   "property": "C148",
   "status": "proved",
   "theorems": [
    "Vvflow.Calm.C148_rest",
    "Vvflow.Calm.C148_ink",
    "Vvflow.Calm.C148_forces",
    "Vvflow.Calm.C148_moving"
   ],
   "note": "In exact arithmetic, on the whole step of C139. `Start` asks of LAPACK's direct solver that it returns a solution only when there is no other (`Slae.Sure`; DGESV reports zero pivots); that the systems of the run have one solution is then derived from their having been solved (`Slae.Call.nonsingular`). C148_moving shows for the code's function what `Start` asks of the setup about moving bodies. Steps that end in an error are not spoken of."
  },
  {
   "property": "C149",
   "status": "partial",
   "theorems": [
    "Vvflow.Mirror.C149_cut_counterexample",
    "Vvflow.Mirror.C149_run_partial"
   ],
   "note": "C149_run_partial: runs of any length without bodies, viscous or not, with heat and sources, for as long as the particles are few and close enough for one node (the condition of C140). Iso.lean proves it for all changes of axes at once, rotations (C136_run_partial) and mirrors. C149_cut_counterexample: with several nodes a vortex exactly on a cut spoils the symmetry. Ink and bodies are not covered; ink does not influence such flows (C140)."
  },
  {
   "property": "C150",
   "status": "proved",
   "theorems": [
    "Vvflow.Slae.C150_returns",
    "Vvflow.Slae.C150_direct",
    "Vvflow.Slae.C150_iff"
   ],
   "note": "C150_returns: returns at any moment of a run if the equations are not singular.  C150_direct: with the direct solver it returns a solution or ends with a message, according to whether they are singular.  C150_iff: both for the first step, with the inverse too (if the hash of the matrix is not 0).  With the inverse in later steps of moving bodies a hash that coincides lets a singular matrix through (C16).  Exact arithmetic; the library is assumed to solve whatever is not singular (Able), which exact elimination does (able_exact)."
  },
  {
   "property": "C151",
   "status": "proved",
   "theorems": [
    "Vvflow.Sim.C151_run",
    "Vvflow.Sim.C151_held",
    "Vvflow.Sim.C151_free"
   ],
   "note": "Exact arithmetic. `Fit` and `Near` say what each state of the run needs; `Sane` says what the library and the tree's constants need. The model's step has no value where the program would abort, stop with a message, read beyond a list or loop forever, so that a value means that none of these happens; whether single velocities are numbers is not part of this claim. With viscosity `Spreads` names what diffusion needs; why it is needed is C75 (a vortex at the very middle of a segment gives NaN; for a heat particle two terms of a denominator may cancel). Bodies that keep a temperature are not covered: their release reads an index of the heat layer that may be stale (C36)."
  },
  {
   "property": "C152",
   "status": "partial",
   "theorems": [
    "Vvflow.Slae.C152_same_body",
    "Vvflow.Slae.C152_two_bodies",
    "Vvflow.Slae.C152_ends",
    "Vvflow.Slae.C152_number",
    "Vvflow.Slae.C152_no_core",
    "Vvflow.Slae.C152_file",
    "Vvflow.Slae.C152_closed_file_counterexample"
   ],
   "note": "`C152_same_body` and `C152_two_bodies` are for exact arithmetic, in which columns of the matrix are equal or combine to zero; in double arithmetic the columns of a contour passed twice are equal too (they are computed from equal numbers by the same operations), but elimination may leave a small pivot instead of a zero.  `C152_number`, `C152_no_core` and `C152_file` use a transcription of `_2PI_Xi_g` that records division by zero and logarithms of zero; `C152_closed_file_counterexample` shows that a file which repeats its first corner at the end is accepted although an influence is not a number."
  },
  {
   "property": "C153",
   "status": "partial",
   "theorems": [
    "Vvflow.Sim.C153_divisors",
    "Vvflow.Sim.C153_far_ends",
    "Vvflow.Slae.C153_equations",
    "Vvflow.Xfield.C153_velocity",
    "Vvflow.Xfield.C153_corner_counterexample",
    "Vvflow.Xfield.C153_source_counterexample",
    "Vvflow.Xfield.C153_zero_source_counterexample",
    "Vvflow.Xfield.C153_coinciding_counterexample"
   ],
   "note": "Exact arithmetic: rounding, overflow and underflow are not included. The counterexamples give the places where the velocity is not a number: corners of moving bodies (a mesh node or a probe may lie there), sources of strength zero, and, without bodies, three vortices at one place, whose radii are zero."
  },
  {
   "property": "C154",
   "status": "partial",
   "theorems": [
    "Vvflow.Xfield.C154_stream",
    "Vvflow.Xfield.C154_stream_map",
    "Vvflow.Xfield.C154_stream_radius",
    "Vvflow.Xfield.C154_pressure",
    "Vvflow.Xfield.C154_no_bodies_counterexample",
    "Vvflow.Xfield.C154_pressure_counterexample"
   ],
   "note": "Exact arithmetic, as in C153. The counterexamples: without bodies the stream function at a vortex, and the pressure at any vortex and any middle of a segment are not numbers (`pressure` is called for nodes outside the bodies only, XPressure.cpp:90, so a vortex is the case a map meets)."
  },
  {
   "property": "C155",
   "status": "proved",
   "theorems": [
    "Vvflow.Sim.C155_step",
    "Vvflow.Tree.C155_near",
    "Vvflow.Tree.C155_mutual",
    "Vvflow.Tree.C155_particles",
    "Vvflow.Tree.C155_disjoint"
   ],
   "note": "Exact arithmetic; in binary64 the centres and sizes of cells are rounded."
  },
  {
   "property": "C156",
   "status": "partial",
   "theorems": [
    "Vvflow.Draw.C156_shown",
    "Vvflow.Draw.C156_cells",
    "Vvflow.Draw.C156_near",
    "Vvflow.Draw.C156_points",
    "Vvflow.Draw.C156_sizes",
    "Vvflow.Draw.C156_empty_counterexample",
    "Vvflow.Draw.C156_step_counterexample"
   ],
   "note": "A flow without anything in it is shown as one rectangle with negative sides.  The cells of a step have other limits of sizes and are not the ones shown."
  },
  {
   "property": "C157",
   "status": "partial",
   "theorems": [
    "Vvflow.Draw.Frame.C157_comment_partial",
    "Vvflow.Draw.Frame.C157_comment_counterexample",
    "Vvflow.Draw.Frame.C157_window",
    "Vvflow.Draw.Frame.C157_window_empty",
    "Vvflow.Draw.Frame.C157_mesh",
    "Vvflow.Draw.Frame.C157_vorticity_partial",
    "Vvflow.Draw.Frame.C157_dots",
    "Vvflow.Draw.Frame.C157_vorticity_counterexample",
    "Vvflow.Draw.Frame.C157_pressure",
    "Vvflow.Draw.Frame.C157_velocity_partial",
    "Vvflow.Draw.Frame.C157_velocity_counterexample"
   ],
   "note": "The palette of a velocity does not ascend when the range does not contain zero (a flow that is faster than zero everywhere in the window), which gnuplot refuses; the range of the vorticity is empty when both percentiles are zero; a frame of a body without bodies is undefined; an argument with a line break becomes a line of the script.  How gnuplot stretches a palette is stated in the specification."
  },
  {
   "property": "C158",
   "status": "partial",
   "theorems": [
    "Vvflow.Shell.C158_usage",
    "Vvflow.Shell.C158_encode_partial",
    "Vvflow.Shell.C158_many_counterexample",
    "Vvflow.Shell.C158_expanded_counterexample",
    "Vvflow.Shell.C158_script",
    "Vvflow.Shell.C158_made",
    "Vvflow.Shell.C158_grid_counterexample"
   ],
   "note": "vvencode compares the number of arguments as text: two to nine arguments are proved, ten to nineteen (and 100 to 199, ...) show the usage (exact condition, counterexample); a mask that the shell expands makes the second picture the output (counterexample).  gpquick: proved, but the grid of the other axis is drawn (counterexample).  The comment of the film and the conversion of numbers to text are not modelled."
  }
 ]
}