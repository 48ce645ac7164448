{
 "claims": [
  {
   "property": "C01",
   "status": "proved",
   "theorems": [
    "Frydom.Func.C01_answer_independent_of_queries",
    "Frydom.Func.C01_history_independence",
    "Frydom.Func.C01_queries_are_invisible"
   ],
   "note": "Refinement of the caching objects to pure denotations, all histories of construct/copy/offset/query commands. Hypothesis: clamp-safe construction (see C05)."
  },
  {
   "property": "C02",
   "status": "partial",
   "theorems": [
    "Frydom.Func.C02_asinh_counterexample",
    "Frydom.Func.C02_derivatives_partial",
    "Frydom.Func.C02_pow_one_at_zero_counterexample",
    "Frydom.Func.C02_value_partial"
   ],
   "note": "All node kinds except asinh (its value is computed with acosh, counterexample) on the regular domain; pow with exponent 1 at 0 counterexample."
  },
  {
   "property": "C03",
   "status": "proved",
   "theorems": [
    "Frydom.Func.C03_constant",
    "Frydom.Func.C03_offset_counterexample",
    "Frydom.Func.C03_operators_pointwise"
   ],
   "note": "Operators clone operands; operands with an x-offset lose it (counterexample shows the restriction is necessary)."
  },
  {
   "property": "C04",
   "status": "partial",
   "theorems": [
    "Frydom.Func.C04_clone_forgets_offset",
    "Frydom.Func.C04_clone_same_partial",
    "Frydom.Func.C04_offset_counterexample"
   ],
   "note": "Holds for zero x-offset; false otherwise (counterexample): the copy constructor drops m_xOffset."
  },
  {
   "property": "C05",
   "status": "partial",
   "theorems": [
    "Frydom.Func.C05_clamp_after_partial",
    "Frydom.Func.C05_clamp_before_partial",
    "Frydom.Func.C05_clamp_history_counterexample",
    "Frydom.Func.C05_nested_clamp_counterexample"
   ],
   "note": "Holds when the operand was not last evaluated exactly at the clamp abscissa at construction; counterexamples otherwise."
  },
  {
   "property": "C06",
   "status": "proved",
   "theorems": [
    "Frydom.Func.C06_cos_ramp",
    "Frydom.Func.C06_linear_ramp"
   ],
   "note": "Linear and cosine ramps, all histories."
  },
  {
   "property": "C07",
   "status": "partial",
   "theorems": [
    "Frydom.Func.C07_constant_set",
    "Frydom.Func.C07_inplace_acts_on_operand",
    "Frydom.Func.C07_inplace_counterexample",
    "Frydom.Func.C07_inplace_on_variable_is_ub",
    "Frydom.Func.C07_linear_setters_have_no_effect",
    "Frydom.Func.C07_polynomial_add_partial",
    "Frydom.Func.C07_pow_set_counterexample",
    "Frydom.Func.C07_replace_operand_partial",
    "Frydom.Func.C07_set_parameter_partial"
   ],
   "note": "Constant Set always; Pow/Clamp Set, ramps, polynomial Add when the next query is not at the cached abscissa; false for linear setters and in-place operators (negations proved)."
  },
  {
   "property": "C08",
   "status": "partial",
   "theorems": [
    "Frydom.Func.C08_saturate_both_partial",
    "Frydom.Func.C08_saturate_high_counterexample",
    "Frydom.Func.C08_saturate_high_is_constant",
    "Frydom.Func.C08_saturate_low_is_minus_infinity"
   ],
   "note": "saturate_both for lo<=hi, all histories; one-sided saturations proved wrong (constants) because of the default bounds."
  },
  {
   "property": "C09",
   "status": "partial",
   "theorems": [
    "Frydom.Func.C09_end_point_counterexample",
    "Frydom.Func.C09_end_points_partial",
    "Frydom.Func.C09_history_counterexample",
    "Frydom.Func.C09_history_partial",
    "Frydom.Func.C09_tolerance",
    "Frydom.Func.C09_two_points_partial"
   ],
   "note": "Holds when earlier queries were all inside the ramp or never at x; end points hold for zero x offset; both false in general (counterexamples)."
  },
  {
   "property": "C10",
   "status": "proved",
   "theorems": [
    "Frydom.Geom.C10_conversion",
    "Frydom.Geom.C10_quaternion_set_get",
    "Frydom.Geom.C10_set_get"
   ],
   "note": "Vectors, positions, quaternions; every setter/getter pair modelled."
  },
  {
   "property": "C11",
   "status": "proved",
   "theorems": [
    "Frydom.Geom.C11_composition",
    "Frydom.Geom.C11_isometry",
    "Frydom.Geom.C11_matrix"
   ],
   "note": "All unit quaternions, both conventions."
  },
  {
   "property": "C12",
   "status": "proved",
   "theorems": [
    "Frydom.Geom.C12_additive",
    "Frydom.Geom.C12_axis_angle",
    "Frydom.Geom.C12_swapped_axis"
   ],
   "note": "Rodrigues formula for every unit axis and angle, additivity of angles, both conventions."
  },
  {
   "property": "C13",
   "status": "partial",
   "theorems": [
    "Frame.C13_round_trip_degrees",
    "Frydom.Geom.C13_gimbal_counterexample",
    "Frydom.Geom.C13_meaning",
    "Frydom.Geom.C13_round_trip_angles",
    "Frydom.Geom.C13_round_trip_rotation_partial"
   ],
   "note": "Angles->rotation->angles proved on the stated ranges; rotation->angles->rotation for every rotation but pitch=-90 deg (there the roll is read from uninitialised memory: counterexample)."
  },
  {
   "property": "C14",
   "status": "proved",
   "theorems": [
    "Frydom.Geom.C14_action",
    "Frydom.Geom.C14_group",
    "Frydom.Geom.C14_relative"
   ],
   "note": "All valid frames, all points, both conventions."
  },
  {
   "property": "C15",
   "status": "partial",
   "theorems": [
    "Frydom.Geom.C15_mul_assign_counterexample",
    "Frydom.Geom.C15_mul_assign_partial"
   ],
   "note": "operator*= computes T*A (proved); counterexample to the documented A*T."
  },
  {
   "property": "C16",
   "status": "partial",
   "theorems": [
    "Frydom.Geom.C16_coordinate_rotations",
    "Frydom.Geom.C16_euler_radians_are_degrees",
    "Frydom.Geom.C16_euler_radians_counterexample",
    "Frydom.Geom.C16_reset",
    "Frydom.Geom.C16_rotate_partial",
    "Frydom.Geom.C16_set_coordinate_rotations",
    "Frydom.Geom.C16_translate"
   ],
   "note": "All clauses proved except \"angles given in radians are used as radians\" for the three-angle overloads, proved false."
  },
  {
   "property": "C17",
   "status": "partial",
   "theorems": [
    "Frydom.Geom.C17_capsized_counterexample",
    "Frydom.Geom.C17_projection_partial",
    "Frydom.Geom.C17_tilted_fails"
   ],
   "note": "Proved for frames without pitch or without roll (z axis upwards); for every tilted frame with both, the assertion fails (proved); capsized counterexample."
  },
  {
   "property": "C18",
   "status": "proved",
   "theorems": [
    "Frydom.Geom.C18_transport"
   ],
   "note": "All torsors and points, both conventions."
  },
  {
   "property": "C19",
   "status": "proved",
   "theorems": [
    "Frydom.Inertia.C19_add",
    "Frydom.Inertia.C19_coefficients",
    "Frydom.Inertia.C19_construction",
    "Frydom.Inertia.C19_matrices"
   ],
   "note": "Any finite list of point masses, any frames, both conventions; construction at a frame, reading at frame and COG, addition."
  },
  {
   "property": "C20",
   "status": "partial",
   "theorems": [
    "Frydom.Inertia.C20_cog_counterexample",
    "Frydom.Inertia.C20_cog_round_trip_partial",
    "Frydom.Inertia.C20_frame_round_trip"
   ],
   "note": "At a frame: proved in both conventions. At COG: NWU only (iff proved); NED counterexamples for the COG constructor and SetInertiaTensorAtCOG."
  },
  {
   "property": "C21",
   "status": "proved",
   "theorems": [
    "Frydom.Recorder.C21_clear",
    "Frydom.Recorder.C21_contents",
    "Frydom.Recorder.C21_delays",
    "Frydom.Recorder.C21_life",
    "Frydom.Recorder.C21_mean"
   ],
   "note": "All histories of records with increments not exceeding the step, any real vector space of data, any capacity >= 1."
  },
  {
   "property": "C22",
   "status": "proved",
   "theorems": [
    "Frydom.Recorder.C22_after_recording",
    "Frydom.Recorder.C22_interpolated_read",
    "Frydom.Recorder.C22_out_of_range",
    "Frydom.Recorder.C22_window"
   ],
   "note": "All recorder states reached (and more generally any sorted state)."
  },
  {
   "property": "C23",
   "status": "partial",
   "theorems": [
    "Frydom.Mesh.C23_area",
    "Frydom.Mesh.C23_cubic_counterexample",
    "Frydom.Mesh.C23_integrals_partial",
    "Frydom.Mesh.C23_mixed_cubic_partial",
    "Frydom.Mesh.C23_uninitialised_counterexample"
   ],
   "note": "1, x, y, xy, x2, y2 proved for every closed planar polygon of nonzero area, plus area = norm of the vector area; x2y and xy2 exact up to an uninitialised number (proved, with counterexample); x3, y3 miss a term (counterexample)."
  },
  {
   "property": "C24",
   "status": "proved",
   "theorems": [
    "Frydom.Mesh.C24_closest",
    "Frydom.Mesh.C24_cloud",
    "Frydom.Mesh.C24_construction",
    "Frydom.Mesh.C24_intersection",
    "Frydom.Mesh.C24_setters"
   ],
   "note": "All planes with unit normal, all points and lines, both conventions."
  },
  {
   "property": "C25",
   "status": "proved",
   "theorems": [
    "Frydom.Waves.C25_finite_depth",
    "Frydom.Waves.C25_infinite_depth",
    "Frydom.Waves.C25_list",
    "Frydom.Waves.C25_zero_frequency"
   ],
   "note": "Exact-arithmetic Newton loop: terminates, meets the residual/accuracy bound and is unique, for every positive frequency, depth and gravity; infinite depth; zero frequency; lists."
  },
  {
   "property": "C26",
   "status": "partial",
   "theorems": [
    "Frydom.Waves.C26_above_counterexample",
    "Frydom.Waves.C26_calm",
    "Frydom.Waves.C26_delta_counterexample",
    "Frydom.Waves.C26_derivative",
    "Frydom.Waves.C26_derivative_below_partial",
    "Frydom.Waves.C26_vertical_ignored_counterexample"
   ],
   "note": "Value below/at calm level and z-derivative for none/wheeler/chakrabarti everywhere; the others below the mean level; counterexamples above it (proved), and the five-argument entry ignores the vertical/extrapolation stretching (proved)."
  },
  {
   "property": "C27",
   "status": "partial",
   "theorems": [
    "DofMask.C27_constraint",
    "DofMask.C27_counts",
    "DofMask.C27_joint",
    "DofMask.C27_last_setting_partial",
    "DofMask.C27_link_type_counterexample"
   ],
   "note": "Last setting, counts, constraint mask and joint masks proved for all histories of setters. False: GetLinkType after SetLinkType (always CUSTOM) and the prismatic-revolute joint (locks nothing): counterexample proved."
  },
  {
   "property": "C28",
   "status": "partial",
   "theorems": [
    "Sys.C28_converged",
    "Sys.C28_during",
    "Sys.C28_first_analysis",
    "Sys.C28_flags_counterexample",
    "Sys.C28_histories_partial",
    "Sys.C28_iterations",
    "Sys.C28_negative_counterexample",
    "Sys.C28_restored",
    "Sys.C28_second_analysis_counterexample",
    "Sys.C28_who"
   ],
   "note": "First analysis and all histories without activity changes between analyses; termination, iteration bound and convergence report. False when an activity is changed between two analyses, for the sleeping flag of fixed bodies and for disabled motors (counterexamples proved)."
  },
  {
   "property": "C29",
   "status": "partial",
   "theorems": [
    "Frydom.Hydro.C29_check_counterexample",
    "Frydom.Hydro.C29_linear_partial"
   ],
   "note": "Power = minus the quadratic form, so dissipation exactly for positive semidefinite matrices (diagonal non-negative: always). False for matrices the library accepts: counterexamples for every coupling larger than the diagonal."
  },
  {
   "property": "C30",
   "status": "proved",
   "theorems": [
    "Frydom.Hydro.C30_force",
    "Frydom.Hydro.C30_opposes"
   ],
   "note": "All coefficients, motions and histories of updates."
  },
  {
   "property": "C31",
   "status": "partial",
   "theorems": [
    "Frydom.Hydro.C31_cog_counterexample",
    "Frydom.Hydro.C31_degree",
    "Frydom.Hydro.C31_dissipation_partial",
    "Frydom.Hydro.C31_load",
    "Frydom.Hydro.C31_parity",
    "Frydom.Hydro.C31_tags"
   ],
   "note": "Degree proved for all exponents; the sign changes with the velocity only for exponents 1, 2 modulo 4, so Xuuu gives energy astern (exact characterisation proved); velocities at the origin but force at the COG (counterexample)."
  },
  {
   "property": "C32",
   "status": "partial",
   "theorems": [
    "Frydom.Env.C32_closed",
    "Frydom.Env.C32_gap_counterexample",
    "Frydom.Env.C32_half_partial",
    "Frydom.Env.C32_lost_counterexample",
    "Frydom.Env.C32_reads",
    "Frydom.Env.C32_sorted",
    "Frydom.Env.C32_whole"
   ],
   "note": "Sorted angles, closing value, content of whole, closed and half tables proved for all tables, units, conventions (std::sort = any sorted rearrangement). Mirror completion proved when the second row is not within 0.1 rad of the start; otherwise one row is lost, and a whole table ending within 0.1 rad of the turn loses its last row (proved). Directions below the first row are out of the lookup table (proved)."
  },
  {
   "property": "C33",
   "status": "partial",
   "theorems": [
    "Frydom.Geom.C33_frame_set_axes_counterexample",
    "Frydom.Geom.C33_frame_set_axes_partial",
    "Frydom.Geom.C33_left_handed_counterexample",
    "Frydom.Geom.C33_matrix_round_trip",
    "Frydom.Geom.C33_rotation_from_axes",
    "Frydom.Geom.C33_rotation_from_matrix"
   ],
   "note": "Rotation from axes/matrix proved for all right-handed triples and rotation matrices, both conventions; FrFrame::Set(pos,axes,fc) only in NWU (counterexample in NED)."
  },
  {
   "property": "C34",
   "status": "proved",
   "theorems": [
    "Frydom.Mesh.C34_bounding_box"
   ],
   "note": "All polygons the constructor accepts."
  },
  {
   "property": "C35",
   "status": "proved",
   "theorems": [
    "Airy.C35_airy_flow",
    "Airy.C35_momentum_defect",
    "Airy.C35_regular_elevation",
    "Airy.C35_regular_flow",
    "Airy.C35_superposition"
   ],
   "note": "Every clause of the linear wave problem for any number of components; residual version for the wave numbers the Newton solver returns; superposition."
  },
  {
   "property": "C36",
   "status": "partial",
   "theorems": [
    "Frydom.Waves.C36_cutoff_ned_counterexample",
    "Frydom.Waves.C36_cutoff_nwu",
    "Frydom.Waves.C36_elevation",
    "Frydom.Waves.C36_pressure_counterexample",
    "Frydom.Waves.C36_pressure_ned",
    "Frydom.Waves.C36_velocity_counterexample",
    "Frydom.Waves.C36_velocity_partial"
   ],
   "note": "Elevation (all cases) and the NWU cut-off proved; velocity/acceleration in the plane y=0 or for waves along x; false elsewhere, false for the pressure and the NED cut-off (counterexamples proved)."
  },
  {
   "property": "C37",
   "status": "partial",
   "theorems": [
    "AiryOptim.C37_irregular_partial",
    "AiryOptim.C37_irregular_synchronised",
    "RegularOptim.C37_loaded_counterexample",
    "RegularOptim.C37_regular",
    "RegularOptim.C37_stale_counterexample"
   ],
   "note": "Irregular and regular: equal to the plain field at the time of the last finalised step over every history (hence equal when synchronised); stale between an update and the end of the step, and wrong for amplitudes loaded from a file (counterexamples)."
  },
  {
   "property": "C38",
   "status": "partial",
   "theorems": [
    "Frydom.Waves.C38_degrees",
    "Frydom.Waves.C38_physical",
    "Frydom.Waves.C38_radians_counterexample",
    "Frydom.Waves.C38_radians_partial",
    "Frydom.Waves.C38_vector",
    "Frydom.Waves.C38_wave_directions"
   ],
   "note": "Physical heading, degrees and list getter proved for all angles and conventions; reading a single direction in radians is wrong (normalised to 360 rad): proved where right, counterexample proved elsewhere."
  },
  {
   "property": "C39",
   "status": "partial",
   "theorems": [
    "Frydom.Waves.C39_history_counterexample",
    "Frydom.Waves.C39_history_reachable",
    "Frydom.Waves.C39_initialize_counterexample",
    "Frydom.Waves.C39_initialize_partial",
    "Frydom.Waves.C39_stretching",
    "Frydom.Waves.C39_stretching_counterexample",
    "Frydom.Waves.C39_wave_number"
   ],
   "note": "First period (finite depth) and every period (infinite depth) proved; the second period after deep-water waves, the initialisation over finite depth and three stretching types are wrong: counterexamples proved."
  },
  {
   "property": "C40",
   "status": "proved",
   "theorems": [
    "Frydom.Waves.C40_jonswap",
    "Frydom.Waves.C40_jonswap_energy",
    "Frydom.Waves.C40_pm_energy",
    "Frydom.Waves.C40_pm_peak"
   ],
   "note": "All parameters; exact real arithmetic."
  },
  {
   "property": "C41",
   "status": "proved",
   "theorems": [
    "Frydom.Waves.C41_amplitudes",
    "Frydom.Waves.C41_cells",
    "Frydom.Waves.C41_directional"
   ],
   "note": "Any grid size other than three (see C42), any nonnegative spectrum and spreading."
  },
  {
   "property": "C42",
   "status": "proved",
   "theorems": [
    "Frydom.Waves.C42_no_model",
    "Frydom.Waves.C42_three",
    "Frydom.Waves.C42_three_directions"
   ],
   "note": "Defect proved for every three-point grid."
  },
  {
   "property": "C43",
   "status": "proved",
   "theorems": [
    "Frydom.Waves.C43_cos2s_normalised",
    "Frydom.Waves.C43_cos2s_shape"
   ],
   "note": "Every real spreading factor; integral via the Beta function and the duplication formula."
  },
  {
   "property": "C44",
   "status": "proved",
   "theorems": [
    "Frydom.Waves.C44_complete",
    "Frydom.Waves.C44_direction_bandwidth",
    "Frydom.Waves.C44_frequency_bandwidth",
    "Frydom.Waves.C44_jonswap_bandwidth",
    "Frydom.Waves.C44_pierson_moskowitz_bandwidth",
    "Frydom.Waves.C44_short_waves_throw",
    "Frydom.Waves.C44_sound"
   ],
   "note": "Exact-arithmetic loop. The bandwidth exists for the usual JONSWAP and Pierson-Moskowitz sea states; short waves (peak from 4.5 rad/s) are refused, which is proved as a defect."
  },
  {
   "property": "C45",
   "status": "proved",
   "theorems": [
    "Revolute.C45_multi_turn",
    "Revolute.C45_spring_damper",
    "Revolute.C45_turns"
   ],
   "note": "All histories of updates (induction), both quaternion signs, exact real arithmetic; link without motor."
  },
  {
   "property": "C46",
   "status": "partial",
   "theorems": [
    "Revolute.C46_rest_angle_counterexample",
    "Revolute.C46_rest_angle_partial"
   ],
   "note": "Proved for rest angles in [0, pi] outside the dead band; false for every negative rest angle (stored as its opposite), proved as a counterexample for all negative angles."
  },
  {
   "property": "C47",
   "status": "proved",
   "theorems": [
    "Frydom.Link.C47_action_reaction"
   ],
   "note": "All frames, reactions, conventions and points."
  },
  {
   "property": "C48",
   "status": "partial",
   "theorems": [
    "Frydom.Link.C48_acceleration_partial",
    "Frydom.Link.C48_angular",
    "Frydom.Link.C48_ned_counterexample",
    "Frydom.Link.C48_node2",
    "Frydom.Link.C48_relative_frames",
    "Frydom.Link.C48_velocity_counterexample",
    "Frydom.Link.C48_velocity_partial"
   ],
   "note": "Angular velocity and acceleration and relative frames proved for all motions; linear velocity right if and only if the relative angular velocity is parallel to the line of the nodes (proved, with a free-link counterexample); NED velocity getters return NWU components (proved)."
  },
  {
   "property": "C49",
   "status": "proved",
   "theorems": [
    "Prismatic.C49_rest_length",
    "Prismatic.C49_spring_damper"
   ],
   "note": "All motions with the joint satisfied; link without motor."
  },
  {
   "property": "C50",
   "status": "proved",
   "theorems": [
    "Body.C50_history",
    "Body.C50_points",
    "Body.C50_rotations",
    "Body.C50_set_get",
    "Body.C50_translations"
   ],
   "note": "All call histories; rotations are unit quaternions (as FrUnitQuaternion enforces)."
  },
  {
   "property": "C51",
   "status": "partial",
   "theorems": [
    "Body.C51_all_axes_partial",
    "Body.C51_body_axes",
    "Body.C51_cog",
    "Body.C51_cog_angular_velocity_counterexample",
    "Body.C51_cog_angular_velocity_partial",
    "Body.C51_no_rotation",
    "Body.C51_rotation_changes_spin_counterexample",
    "Body.C51_translation_keeps_velocity"
   ],
   "note": "Proved for every generalised-velocity setter, for translations and for velocities without rotation. False for SetCOGAngularVelocityInWorld (the reference point velocity is stale) and for changes of orientation (Chrono keeps the quaternion derivative, so the spin changes): both proved as counterexamples."
  },
  {
   "property": "C52",
   "status": "proved",
   "theorems": [
    "Force.C52_cog_force_keeps_torque",
    "Force.C52_cog_loads",
    "Force.C52_point_forces",
    "Force.C52_point_loads",
    "Force.C52_power",
    "Force.C52_readings"
   ],
   "note": "All setters and getters; a force set at the COG keeps the torque set before, which is stated separately."
  },
  {
   "property": "C53",
   "status": "proved",
   "theorems": [
    "Force.C53_inactive",
    "Force.C53_limits"
   ],
   "note": "All force models and non-negative limits."
  },
  {
   "property": "C54",
   "status": "proved",
   "theorems": [
    "Node.C54_attached",
    "Node.C54_body_calls",
    "Node.C54_history",
    "Node.C54_set_get",
    "Node.C54_velocity_in_node"
   ],
   "note": "All histories of position, velocity and COG calls on the body and of position and orientation calls on the node."
  },
  {
   "property": "C55",
   "status": "partial",
   "theorems": [
    "Node.C55_rotate_in_world_counterexample",
    "Node.C55_rotate_partial",
    "Node.C55_translate_in_body_counterexample",
    "Node.C55_translate_in_body_partial"
   ],
   "note": "False in general: both rotations and the body translation are about the axes of the node (proved: exact effect, exact condition under which the documented effect holds, counterexamples)."
  },
  {
   "property": "C56",
   "status": "proved",
   "theorems": [
    "MassBody.C56_dynamics",
    "MassBody.C56_dynamics_after_set",
    "MassBody.C56_set_get"
   ],
   "note": "All symmetric tensors; distributions are finite sets of point masses."
  },
  {
   "property": "C57",
   "status": "proved",
   "theorems": [
    "Sys.C57_containers",
    "Sys.C57_logged",
    "Sys.C57_stepped",
    "Sys.C57_total"
   ],
   "note": "All histories of successful calls. Chrono containers are modelled as lists that assert on double insertion and on removal of an absent object (external)."
  },
  {
   "property": "C58",
   "status": "proved",
   "theorems": [
    "Sys.C58_no_shared_path",
    "Sys.C58_path_injective",
    "Sys.C58_slash_collides"
   ],
   "note": "All chains of parents of the registered types; a counterexample shows the slash-free hypothesis is needed for the path to determine the object, uniqueness among registered objects needs no hypothesis."
  },
  {
   "property": "C59",
   "status": "partial",
   "theorems": [
    "Sys.C59_cable_hinges_stay",
    "Sys.C59_clear",
    "Sys.C59_no_readd",
    "Sys.C59_remove_all_partial",
    "Sys.C59_throw_leaves_half"
   ],
   "note": "Only removing one element from a container of one works. The rest is false and proved false for all reachable states: re-adding throws and leaves the object simulated but not logged, RemoveAll is undefined from two elements on, cable hinges stay, Clear keeps logs and names."
  },
  {
   "property": "C60",
   "status": "proved",
   "theorems": [
    "Flow.C60_angle",
    "Flow.C60_compass",
    "Flow.C60_relative",
    "Flow.C60_velocity"
   ],
   "note": "All flows, angles in both units, conventions and frames."
  },
  {
   "property": "C61",
   "status": "partial",
   "theorems": [
    "Flow.C61_after_step",
    "Flow.C61_history_partial",
    "Flow.C61_lag"
   ],
   "note": "Proved: the ramp is that of the last update before the last end of step, so right after an end of step; during a step it lags (proved for every non-constant ramp)."
  },
  {
   "property": "C62",
   "status": "proved",
   "theorems": [
    "Flow.C62_fluid",
    "Flow.C62_surfaces"
   ],
   "note": "All surfaces that are one surface of space in both conventions; the Airy wave fields and the null one are shown to be such."
  },
  {
   "property": "C63",
   "status": "partial",
   "theorems": [
    "Levels.C63_depth_ned",
    "Levels.C63_depth_partial"
   ],
   "note": "Bathymetry proved in both conventions and depth in NWU; asked in NED the depth is negative (proved for all seabeds)."
  },
  {
   "property": "C64",
   "status": "proved",
   "theorems": [
    "Frydom.Env.C64_polar_load"
   ],
   "note": "All tables (as functions: interpolation is external), motions and attitudes in which the bow is not vertical."
  },
  {
   "property": "C65",
   "status": "proved",
   "theorems": [
    "Frydom.Env.C65_drag",
    "Frydom.Env.C65_init",
    "Frydom.Env.C65_lever",
    "Frydom.Env.C65_load"
   ],
   "note": "All motions with a heading; drag statements for upright bodies and horizontal flows."
  },
  {
   "property": "C66",
   "status": "proved",
   "theorems": [
    "Clip.C66_nothing_above",
    "Clip.C66_plane"
   ],
   "note": "OpenMesh (split, circulators, handles) is external and modelled by its contract; everything it leaves unspecified is universally quantified."
  },
  {
   "property": "C67",
   "status": "proved",
   "theorems": [
    "Clip.C67_partition",
    "Clip.C67_plane"
   ],
   "note": "Projection ratio at most zero (no projection); with projection the surface is only approximated, see C68."
  },
  {
   "property": "C68",
   "status": "proved",
   "theorems": [
    "Clip.C68_projection"
   ],
   "note": "All projection ratios."
  },
  {
   "property": "C69",
   "status": "proved",
   "theorems": [
    "Clip.C69_clipping",
    "Clip.C69_default_threshold",
    "Clip.C69_dichotomy",
    "Clip.C69_intersection"
   ],
   "note": "Wave fields of bounded slope; with the default threshold (equal to that of the dichotomy) no created point may be at exactly 1e-4 of the surface, which is a hypothesis of the separate theorem."
  },
  {
   "property": "C70",
   "status": "partial",
   "theorems": [
    "Surface.C70_area",
    "Surface.C70_face_integrals_partial",
    "Surface.C70_products_example",
    "Surface.C70_products_wrong"
   ],
   "note": "Thirteen of the sixteen integrals and both areas exact for all faces; the integrals of yz, xz, xy are wrong (exact error proved for every face, and an example in which the value depends on the first vertex)."
  },
  {
   "property": "C71",
   "status": "proved",
   "theorems": [
    "Surface.C71_volume"
   ],
   "note": "OpenMesh guarantees taken as hypotheses: loops closed, every half-edge has its opposite. Enclosed volume = signed tetrahedra from any point."
  },
  {
   "property": "C72",
   "status": "proved",
   "theorems": [
    "Surface.C72_centre"
   ],
   "note": "Same conditions, nonzero volume."
  },
  {
   "property": "C73",
   "status": "partial",
   "theorems": [
    "Surface.C73_oblique_arbitrary",
    "Surface.C73_plain_inertia_partial"
   ],
   "note": "Proved for closed meshes and for loops normal to an axis (as after clipping by a horizontal plane). For a loop in an oblique plane the result is arbitrary: proved that every value is returned for some content of uninitialised memory."
  },
  {
   "property": "C74",
   "status": "partial",
   "theorems": [
    "Surface.C74_shell_moments_partial",
    "Surface.C74_shell_open",
    "Surface.C74_shell_wrong"
   ],
   "note": "Moments of inertia proved. Mass and centre are those of the plain solid, whatever the thickness, and the products are off by the errors of C70 (proved)."
  },
  {
   "property": "C75",
   "status": "proved",
   "theorems": [
    "Surface.C75_bounding_box",
    "Surface.C75_box"
   ],
   "note": "All dimensions of nonzero product."
  },
  {
   "property": "C76",
   "status": "proved",
   "theorems": [
    "Surface.C76_rigid_motion",
    "Surface.C76_rotate",
    "Surface.C76_translate"
   ],
   "note": "Uses C71, C72 on the moved mesh."
  },
  {
   "property": "C77",
   "status": "partial",
   "theorems": [
    "Frydom.Hydro.C77_offset_alone",
    "Frydom.Hydro.C77_offset_partial",
    "Frydom.Hydro.C77_offset_wrong",
    "Frydom.Hydro.C77_plane",
    "Frydom.Hydro.C77_waves"
   ],
   "note": "Clipped mesh proved for all bodies, meshes, tides and waves of bounded slope. An offset frame is applied as R(v+t) instead of Rv+t: exact error, and exact condition under which it is right."
  },
  {
   "property": "C78",
   "status": "partial",
   "theorems": [
    "Frydom.Hydro.C78_archimedes_partial",
    "Frydom.Hydro.C78_conventions",
    "Frydom.Hydro.C78_dry",
    "Frydom.Hydro.C78_threshold",
    "Frydom.Hydro.C78_tide_wrong"
   ],
   "note": "Force, application point, dry body and accuracy proved for all meshes (loops at z = 0). With a tide h the force is rho g (V - h A), not rho g V: proved."
  },
  {
   "property": "C79",
   "status": "partial",
   "theorems": [
    "Frydom.Hydro.C79_force_partial",
    "Frydom.Hydro.C79_spurious_yaw",
    "Frydom.Hydro.C79_torque_wrong"
   ],
   "note": "Force proved; the torque is the moment plus an error given exactly (from the wrong integrals of C70), with an example of spurious yaw."
  },
  {
   "property": "C80",
   "status": "partial",
   "theorems": [
    "Stiffness.C80_immersed_wrong",
    "Stiffness.C80_lengths",
    "Stiffness.C80_moonpool_wrong",
    "Stiffness.C80_properties_partial",
    "Stiffness.C80_repeated_wrong"
   ],
   "note": "All results proved for one call on a mesh with any number of outer loops; lengths for all meshes with loops. Inner loops (moonpool) are added instead of subtracted, repeated calls accumulate, a mesh without loop reads an element that does not exist: proved."
  },
  {
   "property": "C81",
   "status": "partial",
   "theorems": [
    "EqFrame.C81_construction",
    "EqFrame.C81_perturbation",
    "EqFrame.C81_reset",
    "EqFrame.C81_slow_frame_stuck",
    "EqFrame.C81_turn",
    "EqFrame.C81_uniform_motion_partial"
   ],
   "note": "Construction and uniform motion proved for all; the motion needs a squared speed above FLT_EPSILON (or zero), and a rate of turn likewise: a slower frame never moves (proved)."
  },
  {
   "property": "C82",
   "status": "partial",
   "theorems": [
    "EqFrame.C82_from_body",
    "EqFrame.C82_ned_get_wrong",
    "EqFrame.C82_ned_set_wrong",
    "EqFrame.C82_velocities_partial"
   ],
   "note": "Proved in NWU, for rates of turn and perturbation velocities in both conventions. Velocities set or read in NED are wrong (proved, with the exact error)."
  },
  {
   "property": "C83",
   "status": "partial",
   "theorems": [
    "Frydom.Hydro.C83_data",
    "Frydom.Hydro.C83_equilibrium",
    "Frydom.Hydro.C83_load_partial",
    "Frydom.Hydro.C83_reduction_wrong",
    "Frydom.Hydro.C83_stiffness"
   ],
   "note": "Load, equilibrium and stiffness proved. The stiffness computed from a mesh is that at the origin of the body, not at the centre of gravity (exact error proved); SetData with an asymmetric matrix (proved)."
  },
  {
   "property": "C84",
   "status": "partial",
   "theorems": [
    "Frydom.Hydro.C84_follows_body_partial",
    "Frydom.Hydro.C84_heading_wrong"
   ],
   "note": "Horizontal convergence, level and altitude proved for all stable steps. The heading does not always turn towards that of the body: across south it goes the long way (proved)."
  },
  {
   "property": "C85",
   "status": "partial",
   "theorems": [
    "Frydom.Hydro.C85_correction_heading_wrong",
    "Frydom.Hydro.C85_correction_set",
    "Frydom.Hydro.C85_correction_wrong",
    "Frydom.Hydro.C85_first_step_wrong",
    "Frydom.Hydro.C85_uniform_partial"
   ],
   "note": "Proved from the first computation on, without the optional position correction; with a correction keeping one value the exact law of the error is proved: it settles one step ahead (defect), and turns the wrong way across south (defect). The first computation uses an uninitialised time: arbitrary displacement (proved)."
  },
  {
   "property": "C86",
   "status": "partial",
   "theorems": [
    "Frydom.Hydro.C86_at_rest",
    "Frydom.Hydro.C86_away_from_origin_wrong",
    "Frydom.Hydro.C86_construction",
    "Frydom.Hydro.C86_convergence",
    "Frydom.Hydro.C86_cycle_wrong",
    "Frydom.Hydro.C86_displacement",
    "Frydom.Hydro.C86_equilibrium_partial",
    "Frydom.Hydro.C86_flared",
    "Frydom.Hydro.C86_immersed_wrong",
    "Frydom.Hydro.C86_second_solve_wrong",
    "Frydom.Hydro.C86_uninitialised_wrong",
    "Frydom.Hydro.C86_wall_sided"
   ],
   "note": "Termination, bounded moves and accuracy of the displacement proved for all meshes; convergence of the displacement for wall-sided hulls, for hulls whose water plane changes by less than a factor of two and for flared hulls (any flare); accuracy of the equilibrium for bodies on the vertical axis of the world. Proved defects: uninitialised first move, iterations never reset, wrong equilibrium away from the axis, undefined behaviour for immersed bodies, endless oscillation for hulls small compared with the relaxation (so convergence for every hull is false). Convergence of the three-variable equilibrium loop is not claimed."
  },
  {
   "property": "C87",
   "status": "partial",
   "theorems": [
    "Frydom.Hydro.C87_away_from_origin_wrong",
    "Frydom.Hydro.C87_default_partial",
    "Frydom.Hydro.C87_matrix_partial",
    "Frydom.Hydro.C87_ned_wrong"
   ],
   "note": "Proved in NWU for bodies on the vertical axis of the world; exact errors proved away from the axis and in NED."
  },
  {
   "property": "C88",
   "status": "proved",
   "theorems": [
    "CableProps.C88_breaking",
    "CableProps.C88_constructor",
    "CableProps.C88_history",
    "CableProps.C88_order",
    "CableProps.C88_setter"
   ],
   "note": "All setters and getters of FrCableProperties."
  },
  {
   "property": "C89",
   "status": "proved",
   "theorems": [
    "CableProps.C89_make_swaps",
    "CableProps.C89_make_wrong"
   ],
   "note": "The defect is the statement."
  },
  {
   "property": "C90",
   "status": "proved",
   "theorems": [
    "Winch.C90_constant_speed",
    "Winch.C90_limits",
    "Winch.C90_repeated",
    "Winch.C90_unrolling"
   ],
   "note": "Hypothesis: speeds and steps are null or over DBL_EPSILON; what happens below is proved too."
  },
  {
   "property": "C91",
   "status": "proved",
   "theorems": [
    "Frydom.Cable.C91_history",
    "Line.C91_cable",
    "Line.C91_conventions",
    "Line.C91_load"
   ],
   "note": "Real arithmetic, q not zero."
  },
  {
   "property": "C92",
   "status": "proved",
   "theorems": [
    "Line.C92_conventions",
    "Line.C92_loads",
    "Line.C92_moment",
    "Line.C92_weight"
   ],
   "note": "Real arithmetic; the moment balance is with the pull applied at the computed end of the line."
  },
  {
   "property": "C93",
   "status": "proved",
   "theorems": [
    "Frydom.Cable.C93_not_elastic",
    "Frydom.Cable.C93_strained_length",
    "Frydom.Cable.C93_too_short"
   ],
   "note": "Real arithmetic."
  },
  {
   "property": "C94",
   "status": "proved",
   "theorems": [
    "Line.C94_derivative",
    "Line.C94_positive"
   ],
   "note": "The excluded case is the subject of C97."
  },
  {
   "property": "C95",
   "status": "proved",
   "theorems": [
    "Frydom.Cable.C95_exit",
    "Frydom.Cable.C95_newton",
    "Frydom.Cable.C95_returns",
    "Frydom.Cable.C95_stationary",
    "Frydom.Cable.C95_too_short"
   ],
   "note": "The inversion of the 3 x 3 matrix is a parameter; convergence itself is not claimed."
  },
  {
   "property": "C96",
   "status": "proved",
   "theorems": [
    "Frydom.Cable.C96_accuracy",
    "Frydom.Cable.C96_converged",
    "Frydom.Cable.C96_equilibrium",
    "Frydom.Cable.C96_exists",
    "Frydom.Cable.C96_monotone",
    "Frydom.Cable.C96_reach",
    "Frydom.Cable.C96_unique"
   ],
   "note": "Existence and uniqueness of the equilibrium are proved; that the iterations of the solver reach it is not claimed (C95 says what its success means)."
  },
  {
   "property": "C97",
   "status": "proved",
   "theorems": [
    "Frydom.Cable.C97_elastic",
    "Frydom.Cable.C97_guess_vertical",
    "Frydom.Cable.C97_hanging",
    "Frydom.Cable.C97_singular"
   ],
   "note": "The defect is the statement."
  },
  {
   "property": "C98",
   "status": "partial",
   "theorems": [
    "Frydom.Hydro.Morison.C98_conventions",
    "Frydom.Hydro.Morison.C98_dissipates",
    "Frydom.Hydro.Morison.C98_law_partial",
    "Frydom.Hydro.Morison.C98_law_turned",
    "Frydom.Hydro.Morison.C98_power",
    "Frydom.Hydro.Morison.C98_resultant"
   ],
   "note": "Resultant, dissipation and power proved for all attitudes. The documented law is proved along axes turned once more by the body, hence for bodies with the axes of the world, and without acceleration of the element; what happens otherwise is C100."
  },
  {
   "property": "C99",
   "status": "proved",
   "theorems": [
    "Frydom.Hydro.Morison.C99_between",
    "Frydom.Hydro.Morison.C99_frame",
    "Frydom.Hydro.Morison.C99_nodes",
    "Frydom.Hydro.Morison.C99_parallel",
    "Frydom.Hydro.Morison.C99_split"
   ],
   "note": "Hypothesis: the direction is not within FLT_EPSILON of the element (or is the default one with a vertical element); rotOfAxes refuses axes that are not exactly orthonormal."
  },
  {
   "property": "C100",
   "status": "proved",
   "theorems": [
    "Frydom.Hydro.Morison.C100_attitude_counterexample",
    "Frydom.Hydro.Morison.C100_inertial"
   ],
   "note": "The defect is the statement."
  },
  {
   "property": "C101",
   "status": "proved",
   "theorems": [
    "Frydom.Hydro.Morison.C101_current_ignored",
    "Frydom.Hydro.Morison.C101_current_memory",
    "Frydom.Hydro.Morison.C101_extended",
    "Frydom.Hydro.Morison.C101_nested_ignored"
   ],
   "note": "The defect is the statement, with the positive part for direct elements."
  },
  {
   "property": "C102",
   "status": "proved",
   "theorems": [
    "Frydom.Hydro.ITTC.C102_dissipates",
    "Frydom.Hydro.ITTC.C102_load",
    "Frydom.Hydro.ITTC.C102_monotone",
    "Frydom.Hydro.ITTC.C102_setters",
    "Frydom.Hydro.ITTC.C102_value"
   ],
   "note": "Real arithmetic; infinite values at the pole as an outcome of their own."
  },
  {
   "property": "C103",
   "status": "proved",
   "theorems": [
    "Frydom.Hydro.ITTC.C103_pole"
   ],
   "note": "The defect is the statement."
  },
  {
   "property": "C104",
   "status": "proved",
   "theorems": [
    "Frydom.Seakeeping.C104_error",
    "Frydom.Seakeeping.C104_integral",
    "Frydom.Seakeeping.C104_linear"
   ],
   "note": "Real arithmetic."
  },
  {
   "property": "C105",
   "status": "proved",
   "theorems": [
    "Frydom.Seakeeping.C105_isometry",
    "Frydom.Seakeeping.C105_mask",
    "Frydom.Seakeeping.C105_set_again"
   ],
   "note": "Mask entries 0 or 1 (asserted by the code); the last clause is a proved defect."
  },
  {
   "property": "C106",
   "status": "proved",
   "theorems": [
    "Frydom.Seakeeping.C106_excitation",
    "Frydom.Seakeeping.C106_hydrostatics",
    "Frydom.Seakeeping.C106_motion_modes",
    "Frydom.Seakeeping.C106_radiation"
   ],
   "note": "HDF5 reading itself is not modelled; the file is a table. The last clause is a proved defect."
  },
  {
   "property": "C107",
   "status": "proved",
   "theorems": [
    "Frydom.Seakeeping.C107_grid",
    "Frydom.Seakeeping.C107_set_step",
    "Frydom.Seakeeping.C107_wave_directions"
   ],
   "note": "Real arithmetic; linspace is a primitive."
  },
  {
   "property": "C108",
   "status": "proved",
   "theorems": [
    "Mapper.C108_mapping",
    "Mapper.C108_remap"
   ],
   "note": "The last clause is a proved defect."
  },
  {
   "property": "C109",
   "status": "proved",
   "theorems": [
    "Frydom.Seakeeping.C109_bilinear",
    "Frydom.Seakeeping.C109_cells",
    "Frydom.Seakeeping.C109_coverage",
    "Frydom.Seakeeping.C109_node"
   ],
   "note": "Interp1dLinear (MathUtils) is a primitive, modelled as linear interpolation between neighbours with its range assertion."
  },
  {
   "property": "C110",
   "status": "proved",
   "theorems": [
    "Frydom.Seakeeping.C110_excitation_is_sum",
    "Frydom.Seakeeping.C110_load",
    "Frydom.Seakeeping.C110_not_refreshed",
    "Frydom.Seakeeping.C110_proportional",
    "Frydom.Seakeeping.C110_regular_wave"
   ],
   "note": "The load is with coefficients at the direction of the waves in the world; what this misses is C111; masks are C112."
  },
  {
   "property": "C111",
   "status": "proved",
   "theorems": [
    "Frydom.Seakeeping.C111_heading_ignored"
   ],
   "note": "The defect is the statement."
  },
  {
   "property": "C112",
   "status": "proved",
   "theorems": [
    "Frydom.Seakeeping.C112_masked_excitation_lost"
   ],
   "note": "The defect is the statement."
  },
  {
   "property": "C113",
   "status": "proved",
   "theorems": [
    "Frydom.Seakeeping.C113_encounter",
    "Frydom.Seakeeping.C113_load",
    "Frydom.Seakeeping.C113_no_phase",
    "Frydom.Seakeeping.C113_quadratic"
   ],
   "note": "Tables are arbitrary functions (LookupTable2d is a primitive); Cardan angles in range."
  },
  {
   "property": "C114",
   "status": "proved",
   "theorems": [
    "Frydom.Seakeeping.C114_angle_out_of_table",
    "Frydom.Seakeeping.C114_ramp_ignored"
   ],
   "note": "The defect is the statement."
  },
  {
   "property": "C115",
   "status": "proved",
   "theorems": [
    "RadModel.C115_applied",
    "RadModel.C115_in_table",
    "RadModel.C115_integral",
    "RadModel.C115_load",
    "RadModel.C115_rest",
    "RadModel.C115_superposition"
   ],
   "note": "Without mean speed; with it see C117. Instants increase by at most the recording step."
  },
  {
   "property": "C116",
   "status": "proved",
   "theorems": [
    "RadModel.C116_clear",
    "RadModel.C116_settings",
    "RadModel.C116_size",
    "RadModel.C116_skip",
    "RadModel.C116_small_period",
    "RadModel.C116_start"
   ],
   "note": "The last clause is a proved defect."
  },
  {
   "property": "C117",
   "status": "proved",
   "theorems": [
    "RadModel.C117_backward",
    "RadModel.C117_mask_twice",
    "RadModel.C117_shared"
   ],
   "note": "The defect is the statement."
  },
  {
   "property": "C118",
   "status": "proved",
   "theorems": [
    "RadModel.C118_inertia",
    "RadModel.C118_world_ned"
   ],
   "note": "Chrono accelerations are parameters; the last clause is a proved defect."
  },
  {
   "property": "C119",
   "status": "proved",
   "theorems": [
    "MassModel.C119_accelerations",
    "MassModel.C119_assembly",
    "MassModel.C119_increments",
    "MassModel.C119_inverse",
    "MassModel.C119_momentum",
    "MassModel.C119_momentum_other",
    "MassModel.C119_residual"
   ],
   "note": "Regular mass matrix; MatrixMN::Inverse is the inverse."
  },
  {
   "property": "C120",
   "status": "proved",
   "theorems": [
    "MassModel.C120_inactive",
    "MassModel.C120_not_linear",
    "MassModel.C120_product_misplaced",
    "MassModel.C120_stale_inverse"
   ],
   "note": "The defect is the statement."
  },
  {
   "property": "C121",
   "status": "proved",
   "theorems": [
    "Frydom.Seakeeping.C121_linear_pressure",
    "Frydom.Seakeeping.C121_load",
    "Frydom.Seakeeping.C121_still",
    "Frydom.Seakeeping.C121_uniform"
   ],
   "note": "The pressure is any function; the immersed mesh is that of C66-C79."
  },
  {
   "property": "C122",
   "status": "proved",
   "theorems": [
    "Frydom.Env.OceanModel.C122_depth_ned",
    "Frydom.Env.OceanModel.C122_fluid",
    "Frydom.Env.OceanModel.C122_level",
    "Frydom.Env.OceanModel.C122_numbers",
    "Frydom.Env.OceanModel.C122_position_convention",
    "Frydom.Env.OceanModel.C122_seabed",
    "Frydom.Env.OceanModel.C122_viscosity"
   ],
   "note": "The elevation is any function with opposite values in the two conventions (C25, C26 for Airy fields). Some clauses are proved defects, as stated."
  },
  {
   "property": "C123",
   "status": "proved",
   "theorems": [
    "Frydom.Env.OceanModel.C123_clock",
    "Frydom.Env.OceanModel.C123_null",
    "Frydom.Env.OceanModel.C123_refused",
    "Frydom.Env.OceanModel.C123_table"
   ],
   "note": "Some clauses are proved defects, as stated."
  },
  {
   "property": "C124",
   "status": "proved",
   "theorems": [
    "Frydom.Env.Geo.C124_axes",
    "Frydom.Env.Geo.C124_compass",
    "Frydom.Env.Geo.C124_magnetic",
    "Frydom.Env.Geo.C124_round_trip"
   ],
   "note": "GeographicLib is a parameter: Forward and Reverse are inverse of each other and send the origin to 0."
  },
  {
   "property": "C125",
   "status": "proved",
   "theorems": [
    "TimeZone.C125_clock_change",
    "TimeZone.C125_elapsed",
    "TimeZone.C125_offset",
    "TimeZone.C125_overflow",
    "TimeZone.C125_start",
    "TimeZone.C125_start_day",
    "TimeZone.C125_zones_ignored"
   ],
   "note": "The library date is a primitive: a zone is its offset as a function of UTC. Some clauses are proved defects, as stated."
  },
  {
   "property": "C126",
   "status": "proved",
   "theorems": [
    "TimeZone.C126_fields",
    "TimeZone.C126_order",
    "TimeZone.C126_zoned"
   ],
   "note": "As C125."
  },
  {
   "property": "C127",
   "status": "proved",
   "theorems": [
    "Solids.C127_box",
    "Solids.C127_cylinder",
    "Solids.C127_sphere"
   ],
   "note": "Real arithmetic; collision shapes and assets not modelled."
  },
  {
   "property": "C128",
   "status": "proved",
   "theorems": [
    "Frydom.Cable.Buoys.C128_body",
    "Frydom.Cable.Buoys.C128_damping",
    "Frydom.Cable.Buoys.C128_delay",
    "Frydom.Cable.Buoys.C128_flotation",
    "Frydom.Cable.Buoys.C128_load",
    "Frydom.Cable.Buoys.C128_range",
    "Frydom.Cable.Buoys.C128_volume"
   ],
   "note": "The free surface is level over the buoy (the code only reads it at the centre). The last clause is a proved defect, relying on ChBody::Update updating the forces of the body before FrBody::Update is called."
  },
  {
   "property": "C129",
   "status": "proved",
   "theorems": [
    "Assembly.C129_contents",
    "Assembly.C129_fixed",
    "Assembly.C129_inertia",
    "Assembly.C129_order",
    "Assembly.C129_refused",
    "Assembly.C129_twice"
   ],
   "note": "Positive masses; the positions solved by Chrono in DoAssembly are not modelled. Some clauses are proved defects, as stated."
  },
  {
   "property": "C130",
   "status": "proved",
   "theorems": [
    "Geometrical.C130_closest",
    "Geometrical.C130_distance",
    "Geometrical.C130_intersection"
   ],
   "note": "The asserts of the code are hypotheses."
  },
  {
   "property": "C131",
   "status": "proved",
   "theorems": [
    "Constraint.C131_body1",
    "Constraint.C131_distance",
    "Constraint.C131_distance_counterexample"
   ],
   "note": "Chrono reactions are parameters, given in the frame of the link relative to the second body of its Initialize. Some clauses are proved defects, as stated."
  },
  {
   "property": "C132",
   "status": "proved",
   "theorems": [
    "Geometrical.C132_point_on_line"
   ],
   "note": "ChLinkLockPointLine keeps the point on the x axis of its frame (external)."
  },
  {
   "property": "C133",
   "status": "proved",
   "theorems": [
    "Frydom.Link.C133_angular",
    "Frydom.Link.C133_linear_counterexample",
    "Frydom.Link.C133_linear_speed_counterexample",
    "Frydom.Link.C133_prismatic_clamp_counterexample",
    "Frydom.Link.C133_revolute_clamp",
    "Frydom.Link.C133_revolute_clamp_counterexample"
   ],
   "note": "What Chrono motors impose is external. Some clauses are proved defects, as stated."
  },
  {
   "property": "C134",
   "status": "proved",
   "theorems": [
    "Motor.C134_action_reaction",
    "Motor.C134_ned_counterexample",
    "Motor.C134_torque_at_node",
    "Spring.C134_spring_damper",
    "Spring.C134_transport"
   ],
   "note": "Some clauses are proved defects, as stated."
  },
  {
   "property": "C135",
   "status": "proved",
   "theorems": [
    "MotorLink.C135_broken",
    "MotorLink.C135_broken_counterexample",
    "MotorLink.C135_one_motor",
    "MotorLink.C135_spring_counterexample",
    "MotorLink.C135_twice_counterexample"
   ],
   "note": "Some clauses are proved defects, as stated."
  },
  {
   "property": "C136",
   "status": "proved",
   "theorems": [
    "MotorLink.C136_coaxial",
    "MotorLink.C136_joints"
   ],
   "note": "A Chrono lock mask sets the locked coordinates of the relative frame to zero (external)."
  },
  {
   "property": "C137",
   "status": "proved",
   "theorems": [
    "Constraint2.C137_coupled",
    "Constraint2.C137_fixed_counterexample",
    "Constraint2.C137_load_counterexample",
    "Constraint2.C137_plain",
    "Constraint2.C137_positive"
   ],
   "note": "Regular mass matrix. Some clauses are proved defects, as stated."
  },
  {
   "property": "C138",
   "status": "proved",
   "theorems": [
    "Line.C138_few",
    "Line.C138_scale",
    "Line.C138_user_scale"
   ],
   "note": "Real arithmetic."
  },
  {
   "property": "C139",
   "status": "proved",
   "theorems": [
    "Line.C139_drawn",
    "Line.C139_segments",
    "Line.C139_single",
    "Line.C139_unrolled"
   ],
   "note": "Real arithmetic: the accumulated abscissa has no rounding. Some clauses are proved defects, as stated."
  },
  {
   "property": "C140",
   "status": "proved",
   "theorems": [
    "DynCable.C140_location",
    "DynCable.C140_outside",
    "DynCable.C140_position",
    "DynCable.C140_stale_number",
    "DynCable.C140_tension"
   ],
   "note": "Interpolation inside an element is a parameter (Chrono), of which only the end values are used. Some clauses are proved defects, as stated."
  },
  {
   "property": "C141",
   "status": "proved",
   "theorems": [
    "DynCable.C141_target"
   ],
   "note": ""
  },
  {
   "property": "C142",
   "status": "proved",
   "theorems": [
    "DynCable.C142_again",
    "DynCable.C142_axes",
    "DynCable.C142_inverse",
    "DynCable.C142_plane",
    "DynCable.C142_rest_slack",
    "DynCable.C142_slack",
    "DynCable.C142_taut",
    "DynCable.C142_vertical"
   ],
   "note": "C142_plane takes as hypothesis that the solver of the catenary line keeps the plane, which C142_inverse proves of a true matrix inverse."
  },
  {
   "property": "C143",
   "status": "partial",
   "theorems": [
    "DynCable.C143_initial",
    "DynCable.C143_orientation",
    "DynCable.C143_position_partial",
    "DynCable.C143_spherical"
   ],
   "note": "The full property (hinge at the node for all bodies) is false: proved iff the COG is at the reference point."
  },
  {
   "property": "C144",
   "status": "proved",
   "theorems": [
    "DynCable.C144_relax",
    "DynCable.C144_section"
   ],
   "note": "SetAsCircularSection is external."
  },
  {
   "property": "C145",
   "status": "partial",
   "theorems": [
    "Frydom.Cable.C145_clean_partial",
    "Frydom.Cable.C145_second"
   ],
   "note": "The second initialization throws: proved defect."
  },
  {
   "property": "C146",
   "status": "proved",
   "theorems": [
    "Frydom.Link.C146_all",
    "Frydom.Link.C146_axes",
    "Frydom.Link.C146_initial",
    "Frydom.Link.C146_planes",
    "Frydom.Link.C146_translations"
   ],
   "note": "A Chrono lock mask sets the locked coordinates of the relative frame of the two nodes to zero (external)."
  },
  {
   "property": "C147",
   "status": "proved",
   "theorems": [
    "Frydom.Core.Simulation.C147_forced_locked",
    "Frydom.Core.Simulation.C147_late",
    "Frydom.Core.Simulation.C147_once",
    "Frydom.Core.Simulation.C147_pass",
    "Frydom.Core.Simulation.C147_step",
    "Frydom.Core.Simulation.C147_tame"
   ],
   "note": "What the initialization of an object does to the containers is constrained by Tame, which C147_tame proves of locked bodies and catenary lines; dynamic cables are C145. Some clauses are proved defects, as stated."
  },
  {
   "property": "C148",
   "status": "proved",
   "theorems": [
    "Frydom.Core.Simulation.C148_default_frame",
    "Frydom.Core.Simulation.C148_files",
    "Frydom.Core.Simulation.C148_frame",
    "Frydom.Core.Simulation.C148_late",
    "Frydom.Core.Simulation.C148_run",
    "Frydom.Core.Simulation.C148_step"
   ],
   "note": "Rows counted per serializer of a message; what hermes writes is external. Some clauses are proved defects, as stated."
  },
  {
   "property": "C149",
   "status": "partial",
   "theorems": [
    "Frydom.Core.Simulation.C149_nonsmooth",
    "Frydom.Core.Simulation.C149_switch"
   ],
   "note": "The property is false of the code; the theorems prove the defects."
  },
  {
   "property": "C150",
   "status": "proved",
   "theorems": [
    "Frydom.Asset.C150_cover",
    "Frydom.Asset.C150_faces",
    "Frydom.Asset.C150_no_overlap",
    "Frydom.Asset.C150_short",
    "Frydom.Asset.C150_vertices"
   ],
   "note": "Real arithmetic. The last clause is a proved defect."
  },
  {
   "property": "C151",
   "status": "partial",
   "theorems": [
    "Frydom.Asset.C151_cover",
    "Frydom.Asset.C151_disc",
    "Frydom.Asset.C151_faces",
    "Frydom.Asset.C151_heights",
    "Frydom.Asset.C151_no_overlap",
    "Frydom.Asset.C151_nodes_partial"
   ],
   "note": "The heights of the polar grid are wrong in the code: proved defect. The plane geometry is fully proved."
  },
  {
   "property": "C152",
   "status": "proved",
   "theorems": [
    "Frydom.Asset.C152_built",
    "Frydom.Asset.C152_no_grid",
    "Frydom.Asset.C152_no_grid_then_update",
    "Frydom.Asset.C152_redrawn",
    "Frydom.Asset.C152_update_on"
   ],
   "note": "What Chrono draws from a mesh is external. The last clause is a proved defect."
  },
  {
   "property": "C153",
   "status": "proved",
   "theorems": [
    "Frydom.Asset.C153_add_remove",
    "Frydom.Asset.C153_force_defects",
    "Frydom.Asset.C153_force_shown",
    "Frydom.Asset.C153_refreshed_are_drawn",
    "Frydom.Asset.C153_removed_still_read",
    "Frydom.Asset.C153_shapes_drawn",
    "Frydom.Asset.C153_shapes_read"
   ],
   "note": "Assertions and null pointers are failures of the call. Some clauses are proved defects, as stated."
  },
  {
   "property": "C154",
   "status": "partial",
   "theorems": [
    "Frydom.Asset.C154_arrow_partial",
    "Frydom.Asset.C154_node",
    "Frydom.Asset.C154_start",
    "Frydom.Asset.C154_start_counterexample"
   ],
   "note": "Direction, length and node axes proved; the start of the arrow is a proved defect. The frame in which Chrono draws the assets of a body is its reference frame (external)."
  },
  {
   "property": "C155",
   "status": "proved",
   "theorems": [
    "Frydom.Core.Settings.C155_contact",
    "Frydom.Core.Settings.C155_negative_gravity",
    "Frydom.Core.Settings.C155_settings",
    "Frydom.Core.Settings.C155_type_forgets",
    "Frydom.Core.Settings.C155_weight"
   ],
   "note": "Settings not listed are set in the same way; the settings of Chrono and the weight it applies are external. Some clauses are proved defects, as stated."
  },
  {
   "property": "C156",
   "status": "proved",
   "theorems": [
    "Frydom.Core.Settings.C156_end_time",
    "Frydom.Core.Settings.C156_overshoot",
    "Frydom.Core.Settings.C156_window"
   ],
   "note": "That the system advances by one step of the viewer per frame is external (Chrono). The last clauses are proved defects."
  },
  {
   "property": "C157",
   "status": "partial",
   "theorems": [
    "Frydom.Utils.C157_key_held",
    "Frydom.Utils.C157_picture_partial",
    "Frydom.Utils.C157_placed",
    "Frydom.Utils.C157_rotation",
    "Frydom.Utils.C157_viewer",
    "Frydom.Utils.C157_wheel",
    "Frydom.Utils.C157_zoom_drag"
   ],
   "note": "Irrlicht primitives are external; real arithmetic. Several clauses of the expected behaviour are false and proved as defects. Dragging with the middle button is only covered by C157_picture."
  },
  {
   "property": "C158",
   "status": "proved",
   "theorems": [
    "Frydom.Utils.Config.C158_folders",
    "Frydom.Utils.Config.C158_throws",
    "Frydom.Utils.Config.C158_undeclared"
   ],
   "note": "The JSON parser is external (a file parses to a value or not). Some clauses are proved defects, as stated."
  },
  {
   "property": "C159",
   "status": "proved",
   "theorems": [
    "Frydom.Utils.Config.C159_log_folder",
    "Frydom.Utils.Config.C159_mkdir",
    "Frydom.Utils.Config.C159_mkdir_file"
   ],
   "note": "Absolute paths, POSIX mkdir and strftime external. Some clauses are proved defects, as stated."
  },
  {
   "property": "C160",
   "status": "partial",
   "theorems": [
    "ABody.C160_body_axes",
    "ABody.C160_motion",
    "ABody.C160_no_rotation_counterexample",
    "ABody.C160_no_rotation_partial",
    "ABody.C160_node_axes",
    "ABody.C160_set",
    "ABody.C160_set_spin",
    "ABody.C160_stale_counterexample"
   ],
   "note": "Chrono primitives (second derivative of the quaternion) external. The set/get and motion clauses are fully proved; for SetAcceleration...NoRotation the expected rigid-body accelerations are false on a spinning body: proved defects."
  },
  {
   "property": "C161",
   "status": "partial",
   "theorems": [
    "DBody.C161_gravity_counterexample",
    "DBody.C161_gravity_partial",
    "DBody.C161_total"
   ],
   "note": "The accumulators and the weight are Chrono's (external). RemoveGravity is proved for gravity 9.81, unchanged mass and one pending call; the rest is false and proved as defects."
  },
  {
   "property": "C162",
   "status": "proved",
   "theorems": [
    "DBody.C162_differences",
    "DBody.C162_limits",
    "DBody.C162_load",
    "DBody.C162_other_limit_counterexample",
    "DBody.C162_set"
   ],
   "note": "ClampSpeed is Chrono's (external); real arithmetic. The last clause is a proved defect."
  },
  {
   "property": "C163",
   "status": "proved",
   "theorems": [
    "DBody.C163_exact",
    "DBody.C163_steps"
   ],
   "note": "Real arithmetic, so no drift of the norm of the quaternion."
  },
  {
   "property": "C164",
   "status": "proved",
   "theorems": [
    "DBody.C164_newton_euler"
   ],
   "note": "That the solver satisfies M a = f is a hypothesis (external)."
  },
  {
   "property": "C165",
   "status": "proved",
   "theorems": [
    "Frydom.Waves.C165_default_band",
    "Frydom.Waves.C165_new_field",
    "Frydom.Waves.C165_single",
    "Frydom.Waves.C165_spread",
    "Frydom.Waves.C165_succeeds",
    "Irr.C165_components",
    "Irr.C165_dispersion",
    "Irr.C165_flow",
    "Irr.C165_phases",
    "Irr.C165_spectrum"
   ],
   "note": "Directional spread clause for COS2S with s in [1/2, 1000]. Success of Initialize is proved when a band was asked and, without one, for the usual sea states (JONSWAP with peakedness 1..10 and Pierson-Moskowitz, height up to 50 m, peak frequency 0.05..3.7 rad/s). linspace, random numbers and the JSON library are external."
  },
  {
   "property": "C166",
   "status": "partial",
   "theorems": [
    "Frydom.Waves.C166_direction_after",
    "Frydom.Waves.C166_more_components",
    "Frydom.Waves.C166_none",
    "Frydom.Waves.C166_short_waves",
    "Frydom.Waves.C166_spectrum_after",
    "Frydom.Waves.C166_spectrum_after_directions"
   ],
   "note": "The expected property is false: only the defects are proved."
  },
  {
   "property": "C167",
   "status": "partial",
   "theorems": [
    "Frydom.Waves.C167_optim_seed",
    "Frydom.Waves.C167_seed",
    "Frydom.Waves.C167_seed_before"
   ],
   "note": "Proved for the plain field after Initialize; the other cases are false and proved as defects."
  },
  {
   "property": "C168",
   "status": "partial",
   "theorems": [
    "Frydom.Waves.C168_optim_amplitudes",
    "Frydom.Waves.C168_optim_counterexample",
    "Frydom.Waves.C168_optim_directions",
    "Frydom.Waves.C168_roundtrip"
   ],
   "note": "Proved for the plain field, JSON numbers taken as exact; false for the optimised field (proved defects)."
  },
  {
   "property": "C169",
   "status": "partial",
   "theorems": [
    "FreeSurface.C169_direction",
    "FreeSurface.C169_height",
    "FreeSurface.C169_irregular",
    "FreeSurface.C169_regular"
   ],
   "note": "Real arithmetic, no time ramp; finite depth within the tolerance of C25. The height clause is false: proved defect. Optimised fields are in C37."
  },
  {
   "property": "C170",
   "status": "proved",
   "theorems": [
    "FreeSurface.C170_grid",
    "FreeSurface.C170_hidden",
    "FreeSurface.C170_still"
   ],
   "note": "The last clause is a proved defect."
  },
  {
   "property": "C171",
   "status": "partial",
   "theorems": [
    "Frame.C171_far_counterexample",
    "Frame.C171_frames",
    "Frame.C171_null_rotation",
    "Frame.C171_rotation_sound",
    "Frame.C171_same_rotation_counterexample"
   ],
   "note": "Real arithmetic; Chrono/Eigen comparisons by their documented formulas. The completeness clauses are false: proved defects."
  },
  {
   "property": "C172",
   "status": "proved",
   "theorems": [
    "Frame.C172_axis_angle",
    "Frame.C172_history",
    "Frame.C172_matrices",
    "Frame.C172_round_trip"
   ],
   "note": "RotateInParent/RotateInFrame of a quaternion (Chrono >>= and *=, which the source calls buggy) are not modelled; GetFixedAxisAngles is an empty function."
  },
  {
   "property": "C173",
   "status": "proved",
   "theorems": [
    "Frydom.Env.PolarFile.C173_columns",
    "Frydom.Env.PolarFile.C173_lengths",
    "Frydom.Env.PolarFile.C173_refused_wrong",
    "Frydom.Env.PolarFile.C173_rows",
    "Frydom.Env.PolarFile.C173_table"
   ],
   "note": "Parser and conversions of the JSON library by their documented behaviour; STRING2ANGLE (MathUtils) taken to know exactly DEG and RAD. Defects proved: C173_refused_wrong, C173_lengths."
  },
  {
   "property": "C174",
   "status": "partial",
   "theorems": [
    "Frydom.Core.Relax.C174_bodies",
    "Frydom.Core.Relax.C174_cables_wrong",
    "Frydom.Core.Relax.C174_positions",
    "Frydom.Core.Relax.C174_ramp_wrong",
    "Frydom.Core.Relax.C174_residual",
    "Frydom.Core.Relax.C174_residual_after"
   ],
   "note": "ChMesh::SetNoSpeedNoAcceleration by its name (external). False clauses proved: C174_cables_wrong, C174_ramp_wrong."
  },
  {
   "property": "C175",
   "status": "proved",
   "theorems": [
    "Frydom.Seakeeping.H5.C175_bodies",
    "Frydom.Seakeeping.H5.C175_complete",
    "Frydom.Seakeeping.H5.C175_data",
    "Frydom.Seakeeping.H5.C175_ids",
    "Frydom.Seakeeping.H5.C175_motion_modes_wrong",
    "Frydom.Seakeeping.H5.C175_settings",
    "Frydom.Seakeeping.H5.C175_std_wrong"
   ],
   "note": "HDF5 as a partial function of absolute paths as the library resolves them (a doubled slash is part of the path string); a dataset of another class than the one asked for is refused. Defects proved: C175_motion_modes_wrong, C175_std_wrong."
  },
  {
   "property": "C176",
   "status": "partial",
   "theorems": [
    "Frydom.Core.LogColumns.C176_body",
    "Frydom.Core.LogColumns.C176_convention",
    "Frydom.Core.LogColumns.C176_convention_wrong",
    "Frydom.Core.LogColumns.C176_equilibrium",
    "Frydom.Core.LogColumns.C176_equilibrium_wrong",
    "Frydom.Core.LogColumns.C176_force",
    "Frydom.Core.LogColumns.C176_link",
    "Frydom.Core.LogColumns.C176_link_wrong",
    "Frydom.Core.LogColumns.C176_motor_power_wrong",
    "Frydom.Core.LogColumns.C176_node"
   ],
   "note": "False clauses proved: C176_link_wrong, C176_motor_power_wrong, C176_equilibrium_wrong, C176_convention_wrong. Not modelled: logs of the constraints and cables; writing of numbers (serializer, external)."
  },
  {
   "property": "C177",
   "status": "partial",
   "theorems": [
    "Node.C177_angular_velocity_wrong",
    "Node.C177_rotate_around",
    "Node.C177_set_axes",
    "Node.C177_translate_along"
   ],
   "note": "Axes, rotations about an axis and moves along a direction proved for all bodies, nodes and conventions. The clause on the angular velocity in body and node axes is false of the code: C177_angular_velocity_wrong proves the values read and the exact condition under which they are right."
  },
  {
   "property": "C178",
   "status": "partial",
   "theorems": [
    "Frydom.Waves.C178_mean_direction_wrong",
    "Frydom.Waves.C178_one_wrong",
    "Frydom.Waves.C178_range"
   ],
   "note": "Energies, total energy and agreement with the list overload proved for every range of two frequencies or more. False clauses proved: one frequency (C178_one_wrong), mean direction ignored (C178_mean_direction_wrong)."
  },
  {
   "property": "C179",
   "status": "partial",
   "theorems": [
    "Frydom.Func.C179_chrono",
    "Frydom.Func.C179_estimates",
    "Frydom.Func.C179_no_end",
    "Frydom.Func.C179_table",
    "Frydom.Func.C179_text_wrong"
   ],
   "note": "Tables with a positive step, estimated derivatives (expressions without asinh, where smooth) and functions given to a motor proved. False clauses proved: step not positive (C179_no_end), texts (C179_text_wrong), offset dropped by a motor (in C179_chrono)."
  },
  {
   "property": "C180",
   "status": "partial",
   "theorems": [
    "Frydom.Core.LogColumns.C180_cable",
    "Frydom.Core.LogColumns.C180_constraint",
    "Frydom.Core.LogColumns.C180_constraint_wrong",
    "Frydom.Core.LogColumns.C180_drawing_wrong",
    "Frydom.Core.LogColumns.C180_line"
   ],
   "note": "All columns proved for the five constraints other than the distances, for catenary lines and for dynamic cables whose number of elements is that of the mesh. False clauses proved: C180_constraint_wrong, C180_drawing_wrong."
  },
  {
   "property": "C181",
   "status": "proved",
   "theorems": [
    "HMesh.C181_boundary",
    "HMesh.C181_polygons",
    "HMesh.C181_watertight",
    "Obj.C181_closed",
    "Obj.C181_convert",
    "Obj.C181_history"
   ],
   "note": "What OpenMesh guarantees of the half-edges of a triangular mesh is a hypothesis (HMesh.WF); it implies what C70 to C74 suppose of the loops."
  },
  {
   "property": "C182",
   "status": "partial",
   "theorems": [
    "GConstraint.C182_auto_wrong",
    "GConstraint.C182_axis_partial",
    "GConstraint.C182_directions",
    "GConstraint.C182_later_wrong",
    "GConstraint.C182_planes",
    "GConstraint.C182_points_partial",
    "GConstraint.C182_sliding_wrong"
   ],
   "note": "Parallel, perpendicular, point-on-plane and plane-on-plane constraints proved; the two distances proved for a distance set before the initialisation. False clauses proved: a distance set later is returned and not imposed (C182_later_wrong), the automatic distance is not the one returned (C182_auto_wrong), the point cannot slide along the axis (C182_sliding_wrong). What the Chrono links impose is an assumption, written in Side and Satisfied."
  },
  {
   "property": "C183",
   "status": "proved",
   "theorems": [
    "Frydom.Hydro.C183_stiffness"
   ],
   "note": "the load is written from scratch (pressure over the whole hull, no clipping); faces lying in the plane of the sea are excluded (the load has no derivative there); the depth integrals are real integrals, floating point is not modelled"
  },
  {
   "property": "C184",
   "status": "partial",
   "theorems": [
    "Frydom.Hydro.C184_heading_wrong",
    "Frydom.Hydro.C184_heights_partial",
    "Frydom.Hydro.C184_when_centred",
    "Frydom.Hydro.C184_wrong"
   ],
   "note": "proved: the exact relation of the heights returned to the righting moments, so they are right exactly when the centroid of the water plane is under the origin of the body and the heading is zero; false otherwise (C184_wrong, C184_heading_wrong)"
  },
  {
   "property": "C185",
   "status": "partial",
   "theorems": [
    "Frydom.Hydro.C185_from_mesh",
    "Frydom.Hydro.C185_heading_wrong",
    "Frydom.Hydro.C185_offset_wrong",
    "Frydom.Hydro.C185_tangent"
   ],
   "note": "proved for the force with a stiffness reduced on the vertical of the centre of gravity (C185_tangent) and for the maker with a mesh when that vertical is the one of the origin of the body and its heading is zero when the force is made (C185_from_mesh); false otherwise (C185_offset_wrong, C185_heading_wrong). First order is along every differentiable motion"
  },
  {
   "property": "C186",
   "status": "proved",
   "theorems": [
    "Frydom.Link.C186_body1",
    "Frydom.Link.C186_body2",
    "Frydom.Link.C186_power",
    "Frydom.Link.C186_power_prismatic",
    "Frydom.Link.C186_power_revolute",
    "Frydom.Link.C186_prismatic",
    "Frydom.Link.C186_revolute"
   ],
   "note": "what Chrono applies for C_force and C_torque (axes of node 1, at node 2, opposite on body 1) is the comment quoted in FrLink.cpp:594-598, written in appliedOnBody1/2; the open-joint clauses are equivalences (C186_body1, C186_body2)"
  },
  {
   "property": "C187",
   "status": "proved",
   "theorems": [
    "Frydom.Waves.C187_draws",
    "Frydom.Waves.C187_mean_level",
    "Frydom.Waves.C187_mean_square",
    "Frydom.Waves.C187_one_direction",
    "Frydom.Waves.C187_random_phases",
    "Frydom.Waves.C187_spectrum",
    "Frydom.Waves.C187_two_directions"
   ],
   "note": "C187_two_directions proves that with two non parallel directions sharing a frequency the long-run mean square differs from place to place (two components of the same frequency stay locked); C187_draws takes the numbers of the random device as independent uniform random variables; the time ramp must be continuous and eventually one"
  },
  {
   "property": "C188",
   "status": "proved",
   "theorems": [
    "Frydom.Seakeeping.C188_excitation",
    "Frydom.Seakeeping.C188_response_spectrum",
    "Frydom.Waves.C188_pressure",
    "Frydom.Waves.C188_velocity"
   ],
   "note": "one direction, distinct frequencies (with several directions components of one frequency stay locked, see C187); the equilibrium frame is held fixed in C188_excitation; standard modes of the database"
  },
  {
   "property": "C189",
   "status": "partial",
   "theorems": [
    "Frydom.Hydro.C189_asymmetric_wrong",
    "Frydom.Hydro.C189_load_partial"
   ],
   "note": "angles within the range of the Cardan angles (as C83); symmetric matrices; for the others the defect is proved (C189_asymmetric_wrong)"
  },
  {
   "property": "C190",
   "status": "proved",
   "theorems": [
    "Frydom.Seakeeping.C190_energy",
    "Frydom.Seakeeping.C190_truncated_wrong"
   ],
   "note": "the work is the sum over the steps of load times velocity times step; the velocities are those about the equilibrium frames (no mean speed); motions not active in the masks are locked; the memory condition is a hypothesis: beyond it the defect is proved (C190_truncated_wrong)"
  },
  {
   "property": "C191",
   "status": "proved",
   "theorems": [
    "Frydom.Hydro.C191_energy",
    "Frydom.Hydro.C191_power"
   ],
   "note": "the mesh at each time is given as the part of the hull under the sea (hypothesis Wetted: equal integrals of what vanishes above the sea) and closed at the surface, as C66-C72 describe the clipper; still water, plane surface; the energy theorem is for exact solutions of the equations of C164"
  },
  {
   "property": "C192",
   "status": "proved",
   "theorems": [
    "Frydom.Hydro.C192_force",
    "Frydom.Hydro.C192_load",
    "Frydom.Hydro.C192_power",
    "Frydom.Hydro.C192_pressure",
    "Frydom.Mesh.C192_integrals"
   ],
   "note": "no projection of vertices (projection moves the hull: C68); torque and power under the hypotheses of C78 on the clipped mesh (closed by flat loops at the surface); the sea at rest at z = 0"
  },
  {
   "property": "C193",
   "status": "proved",
   "theorems": [
    "Frydom.Waves.C193_directions",
    "Frydom.Waves.C193_frequencies",
    "Frydom.Waves.C193_full_circle",
    "Frydom.Waves.C193_height",
    "Frydom.Waves.C193_range",
    "Frydom.Waves.C193_sea"
   ],
   "note": "lists of exactly three frequencies or directions excluded (C42); the limit of the height is stated for the two spectra whose energy is Hs^2/16 (other peakedness factors: the energy limit is that of any continuous density)"
  },
  {
   "property": "C194",
   "status": "proved",
   "theorems": [
    "Frydom.Cable.C194_bodies",
    "Frydom.Cable.C194_energy",
    "Frydom.Cable.C194_moored",
    "Frydom.Cable.C194_moored_start",
    "Frydom.Cable.C194_power",
    "Frydom.Cable.C194_steps",
    "Frydom.Cable.C194_stiffness",
    "Frydom.Cable.C194_work"
   ],
   "note": "the line is given in exact equilibrium at every time (what the solver reaches up to its tolerance is C96); constant unstrained length; the load per metre is not zero (the code divides by it); the energy of bodies is for exact solutions of the equations of C164"
  },
  {
   "property": "C195",
   "status": "proved",
   "theorems": [
    "Frydom.Hydro.C195_floating",
    "Frydom.Hydro.C195_moored",
    "Frydom.Hydro.C195_work"
   ],
   "note": "for exact solutions of the equations of C164 (not the time steps of Chrono); lines in exact equilibrium, of constant length; water at rest and mesh cut at the surface as in C191; damping relative to the world; a matrix accepted by Check() whose form is not positive is the defect proved in C29"
  },
  {
   "property": "C196",
   "status": "proved",
   "theorems": [
    "Frydom.Hydro.C196_bodies",
    "Frydom.Hydro.C196_bodies_revolute",
    "LinkMotion.C196_prismatic",
    "LinkMotion.C196_prismatic_work",
    "LinkMotion.C196_reactions",
    "LinkMotion.C196_revolute"
   ],
   "note": "the joint is satisfied at every time (Chrono enforces it up to its tolerance; external); Chrono is trusted to give reactions without component along the freedom of the joint and true relative rates; for exact solutions of the equations of C164; the revolute energy of two bodies is for link angles outside the dead band of the measure (C45), the balance of powers also inside, with its error"
  },
  {
   "property": "C197",
   "status": "proved",
   "theorems": [
    "Frydom.Hydro.C197_angular",
    "Frydom.Hydro.C197_joint",
    "Frydom.Hydro.C197_momentum",
    "Frydom.Hydro.C197_slider"
   ],
   "note": "for exact solutions of the equations of C164 (not the time steps of Chrono); the joint is satisfied at every time; with an open joint the spring-damper loads returned are opposite only under the conditions of C186"
  },
  {
   "property": "C198",
   "status": "proved",
   "theorems": [
    "Frydom.Hydro.C198_floating",
    "Frydom.Hydro.C198_hydrostatic",
    "Frydom.Hydro.C198_line"
   ],
   "note": "for exact solutions of the equations of C164 (not the time steps of Chrono) and a line whose end is exactly at its node (residual zero; the code solves it up to a tolerance); the wetted mesh has its boundary in the plane z = 0, as the clipper gives it without tide"
  }
 ]
}