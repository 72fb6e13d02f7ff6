{"claims": [
{"property": "C01", "status": "proved", "theorems": ["Pyorb.c01_kep_cart_kep", "Pyorb.c01_kep_cart_kep_vec"], "note": ""},
{"property": "C02", "status": "proved", "theorems": ["Pyorb.c02_cart_kep_cart"], "note": ""},
{"property": "C03", "status": "proved", "theorems": ["Pyorb.c03_kep_to_cart", "Pyorb.c03_kep_to_cart_vec"], "note": ""},
{"property": "C04", "status": "proved", "theorems": ["Pyorb.c04_ranges", "Pyorb.c04_parabola"], "note": ""},
{"property": "C05", "status": "partial", "theorems": ["Pyorb.c05_unmodified_partial", "Pyorb.c05_unmodified_degrees_partial", "Pyorb.c05_hyperbola_modified", "Pyorb.c05_second_call_nan"], "note": "False as stated: line 1750 negates the caller's semi-major axis when e>1 (proved by c05_hyperbola_modified). The partials prove the claim for all columns with e<=1."},
{"property": "C06", "status": "partial", "theorems": ["Pyorb.c06_cart_to_kep_partial", "Pyorb.c06_cart_to_kep_reshaped", "Pyorb.c06_kep_to_cart_partial", "Pyorb.c06_kep_to_cart_corrupts"], "note": "False as stated: a mu array of the wrong length raises after the in-place changes. The partials cover the type and row checks."},
{"property": "C07", "status": "partial", "theorems": ["Pyorb.c07_cart_to_kep", "Pyorb.c07_kep_to_cart", "Pyorb.c07_kep_to_equi", "Pyorb.c07_equi_to_kep", "Pyorb.c07_anomaly_partial", "Pyorb.c07_anomaly_leaks"], "note": "True for the four conversions (all inputs, NaN included). False for the anomaly functions when e is NaN: uninitialised memory is returned (c07_anomaly_leaks); partial for e not NaN."},
{"property": "C08", "status": "partial", "theorems": ["Pyorb.c08_true_ecc_true_turn", "Pyorb.c08_true_ecc_true_ellipse", "Pyorb.c08_ecc_true_ecc_turn", "Pyorb.c08_ecc_true_ecc", "Pyorb.c08_true_ecc_true_open", "Pyorb.c08_inbound_fails", "Pyorb.c08_true_ecc_true_open_partial"], "note": "Holds in full on ellipses and, for eccentric->true->eccentric, for every orbit with anomaly in [0,2pi). For e>=1 true->eccentric->true holds exactly when the parabolic/hyperbolic anomaly is in [0,2pi) (c08_true_ecc_true_open); it fails on the whole inbound leg (c08_inbound_fails)."},
{"property": "C09", "status": "proved", "theorems": ["Pyorb.c09_residual"], "note": ""},
{"property": "C10", "status": "proved", "theorems": ["Pyorb.c10_unique", "Pyorb.c10_error", "Pyorb.c10_accepted"], "note": ""},
{"property": "C100", "status": "proved", "theorems": ["Pyorb.c100_rot", "Pyorb.c100_euler", "Pyorb.c100_orthogonal"], "note": ""},
{"property": "C101", "status": "proved", "theorems": ["Pyorb.c101"], "note": "x**2 and x**3 are products; overflow and underflow are not modelled."},
{"property": "C102", "status": "proved", "theorems": ["Pyorb.c102_equi", "Pyorb.c102_kep", "Pyorb.c102_round_trip"], "note": "Single 6-vectors, radians."},
{"property": "C103", "status": "proved", "theorems": ["Pyorb.Orbit.c103_value", "Pyorb.Orbit.c103_new", "Pyorb.Orbit.c103_copy", "Pyorb.Orbit.c103_copy_original", "Pyorb.Orbit.c103_next", "Pyorb.Orbit.c103_independent", "Pyorb.Orbit.c103_frame", "Pyorb.Orbit.c103_write", "Pyorb.Orbit.c103_get", "Pyorb.Orbit.c103_answer", "Pyorb.Orbit.c103_m_is_shared", "Pyorb.Orbit.c103_epoch_is_shared"], "note": "Heap model OrbitHeap: arrays as cells, objects as records of references. Only public attributes are used by the caller."},
{"property": "C104", "status": "proved", "theorems": ["Pyorb.c104_true", "Pyorb.c104_mean", "Pyorb.c104_eccentric", "Pyorb.c104_true_to_mean", "Pyorb.c104_round_trip"], "note": "Inbound leg and E > 2 pi are excluded because true_to_eccentric reduces the hyperbolic anomaly modulo 2 pi there (C08)."},
{"property": "C105", "status": "proved", "theorems": ["Pyorb.c105", "Pyorb.c105_true", "Pyorb.c105_binary64"], "note": "M >= 0 as in C76. Between e = 1 and e = 1.2 with rounding only the conditional C69 holds."},
{"property": "C106", "status": "proved", "theorems": ["Pyorb.c106_true", "Pyorb.c106_mean", "Pyorb.c106_eccentric", "Pyorb.c106_true_to_mean", "Pyorb.c106_round_trip", "Pyorb.c106_outbound", "Pyorb.c106_both", "Pyorb.c106_inbound_overflow"], "note": "true_to_eccentric reduces E modulo 2 pi, which is why its range is limited (C08). The overflow on the inbound leg is a defect of the code: cbrt(A + sqrt(A**2 + 1)) cancels for A < 0."},
{"property": "C107", "status": "proved", "theorems": ["Pyorb.c107", "Pyorb.c107_true", "Pyorb.c107_default", "Pyorb.c107_binary64", "Pyorb.c107_true_binary64"], "note": "Replaces the bound e <= 0.7 of C96 by e <= 1 - 25 u, at the price of a larger minimal tolerance (the default 1e-12 is above it in double precision). Closer to 1 the sign of the computed derivative is not determined by the error bounds of the model."},
{"property": "C108", "status": "proved", "theorems": ["Pyorb.Orbit.c108", "Pyorb.Orbit.c108_default"], "note": "C98 without the bound e <= 0.7. That the calls return: Orbit.c98_returns, which has no bound on e."},
{"property": "C109", "status": "proved", "theorems": ["Pyorb.Orbit.c109", "Pyorb.Orbit.c109_default"], "note": "C108 for degrees=True. That the calls return: Orbit.c98_returns."},
{"property": "C11", "status": "proved", "theorems": ["Pyorb.c11_terminates", "Pyorb.c11_start_accepted", "Pyorb.c11_at_least_one"], "note": ""},
{"property": "C110", "status": "proved", "theorems": ["Pyorb.Orbit.c110", "Pyorb.Orbit.c110_reads", "Pyorb.Orbit.c110_repeated", "Pyorb.Orbit.c110_default", "Pyorb.Orbit.c110_default_near"], "note": "Exact arithmetic: C79. That repeated calls return: Orbit.c98_returns."},
{"property": "C111", "status": "proved", "theorems": ["Pyorb.c111", "Pyorb.c111_true", "Pyorb.c111_binary64"], "note": "Exact arithmetic: C76. C105 allows larger tolerances for e >= 1.2."},
{"property": "C112", "status": "proved", "theorems": ["Pyorb.c112", "Pyorb.c112_degrees", "Pyorb.c112_trip", "Pyorb.c112_binary64"], "note": "The cause is the arccosine of a rounded cosine (kepler.py 417, 447, 478, 517). Upper bounds for the errors: C93, C94."},
{"property": "C113", "status": "proved", "theorems": ["Pyorb.Orbit.c113", "Pyorb.Orbit.c113_reads", "Pyorb.Orbit.c113_repeated", "Pyorb.Orbit.c113_default"], "note": "Radians: C110. Ellipses in degrees: C109. That the calls return: C98 (c98_returns)."},
{"property": "C114", "status": "proved", "theorems": ["Pyorb.c114", "Pyorb.c114_sqrt", "Pyorb.c114_binary64"], "note": "With exact arithmetic the state comes back exactly: C02. The factor sqrt(u) near angles 0 and pi is a loss the code really has: C112."},
{"property": "C115", "status": "proved", "theorems": ["Pyorb.Orbit.c115", "Pyorb.Orbit.c115_binary64"], "note": "Exact arithmetic: C02 and C73. Propagation from stored elements with rounding: C108. The two conversions alone: C114. That the calls return: C98 (c98_returns)."},
{"property": "C116", "status": "proved", "theorems": ["Pyorb.c116", "Pyorb.c116_sqrt", "Pyorb.c116_binary64"], "note": "Exact arithmetic: C01. Orbits that are neither nearly circular nor equatorial: C114. Eccentricities between 9.9e-10 and 3e-9, where rounding decides which case is taken, and inclinations within about 1e-8 of the plane but not in it are in neither."},
{"property": "C117", "status": "proved", "theorems": ["Pyorb.c117", "Pyorb.c117_circular", "Pyorb.c117_binary64", "Pyorb.c117_circular_binary64"], "note": "The plane is exact: z and vz are zero, and the program computes inclination 0 or the rounded pi. Orbits inclined by less than about 1e-8 are not covered here or in C114 and C116."},
{"property": "C118", "status": "proved", "theorems": ["Pyorb.Orbit.c118", "Pyorb.Orbit.c118_plane", "Pyorb.Orbit.c118_plane_circular", "Pyorb.Orbit.c118_binary64"], "note": "Orbits that are neither nearly circular nor equatorial: C115. The same gaps between the cases as in C116 and C117."},
{"property": "C119", "status": "proved", "theorems": ["Pyorb.c119", "Pyorb.c119_circular", "Pyorb.c119_plane", "Pyorb.c119_plane_circular", "Pyorb.c119_binary64"], "note": "Radians: C114, C116, C117. Exact arithmetic: C01, C02, C21."},
{"property": "C12", "status": "partial", "theorems": ["Pyorb.c12_finite_iff", "Pyorb.c12_finite_partial", "Pyorb.c12_inbound_nan"], "note": "False as stated: finite exactly for M > -0.9 e."},
{"property": "C120", "status": "proved", "theorems": ["Pyorb.Orbit.c120", "Pyorb.Orbit.c120_circular", "Pyorb.Orbit.c120_plane", "Pyorb.Orbit.c120_plane_circular", "Pyorb.Orbit.c120_binary64"], "note": "Radians: C115, C118. Objects that were given elements in degrees: C109. The same gaps between the cases as in C116 and C117."},
{"property": "C121", "status": "proved", "theorems": ["Pyorb.c121", "Pyorb.c121_degrees", "Pyorb.c121_sqrt", "Pyorb.c121_binary64"], "note": "Ellipses: C114, C116, C117, C119. Exact arithmetic: C01, C02."},
{"property": "C122", "status": "proved", "theorems": ["Pyorb.Orbit.c122", "Pyorb.Orbit.c122_binary64"], "note": "Ellipses: C115, C118. Hyperbolas given by their elements: C110. Exact arithmetic: C79."},
{"property": "C123", "status": "proved", "theorems": ["Pyorb.Orbit.c123", "Pyorb.Orbit.c123_binary64"], "note": "Radians: C122. Ellipses: C120. Hyperbolas given by their elements: C113."},
{"property": "C124", "status": "proved", "theorems": ["Pyorb.Orbit.c124", "Pyorb.Orbit.c124_binary64"], "note": "A single call, for all three anomaly types: C122. Ellipses: C115. Hyperbolas given by their elements: C110."},
{"property": "C125", "status": "proved", "theorems": ["Pyorb.Orbit.c125", "Pyorb.Orbit.c125_binary64"], "note": "A single call, for all three anomaly types: C123. Radians: C124. Hyperbolas given by their elements: C113."},
{"property": "C126", "status": "proved", "theorems": ["Pyorb.Orbit.c126_elements", "Pyorb.Orbit.c126_ellipse", "Pyorb.Orbit.c126_hyperbola"], "note": "Follows from the closeness of every such run to one Newtonian motion: C98, C115, C124."},
{"property": "C127", "status": "proved", "theorems": ["Pyorb.Orbit.c127_ellipse", "Pyorb.Orbit.c127_binary64", "Pyorb.Orbit.c127_hyperbola"], "note": "The constants of the motion are proved from Newton's equations (newton_angMom, newton_energy in PropsDrift.lean); the closeness of the state to the motion is C115 and C124."},
{"property": "C13", "status": "proved", "theorems": ["Pyorb.c13_apsides", "Pyorb.c13_apoapsis_limit", "Pyorb.c13_half_turn", "Pyorb.c13_increasing"], "note": "The value at pi follows the model reading tan(pi/2)=+inf; c13_apoapsis_limit shows it is also the limit."},
{"property": "C14", "status": "proved", "theorems": ["Pyorb.c14_ellipse", "Pyorb.c14_parabola", "Pyorb.c14_hyperbola"], "note": "All true anomalies; tan(nu/2) at exactly half a turn is taken to be +inf (floats give 1.6e16), see DESIGN."},
{"property": "C15", "status": "proved", "theorems": ["Pyorb.c15_orbital_speed"], "note": ""},
{"property": "C16", "status": "proved", "theorems": ["Pyorb.c16_period", "Pyorb.c16_axis"], "note": ""},
{"property": "C17", "status": "proved", "theorems": ["Pyorb.c17_rot_mat_x", "Pyorb.c17_rot_mat_y", "Pyorb.c17_rot_mat_z", "Pyorb.c17_rot_mat_add", "Pyorb.c17_euler", "Pyorb.c17_euler_rotation"], "note": ""},
{"property": "C18", "status": "proved", "theorems": ["Pyorb.c18_stumpff", "Pyorb.c18_scalar_raises"], "note": ""},
{"property": "C19", "status": "proved", "theorems": ["Pyorb.c19_kep_equi_kep", "Pyorb.c19_kep_equi_kep_vec", "Pyorb.c19_equi_kep_equi", "Pyorb.c19_band"], "note": ""},
{"property": "C20", "status": "proved", "theorems": ["Pyorb.c20_exact", "Pyorb.c20_same_orbit"], "note": "c20_exact assumes an exact solution of Kepler's equation as the property says; c20_same_orbit is the version with the error bound of the real solver (iteration limit not hit)."},
{"property": "C21", "status": "proved", "theorems": ["Pyorb.c21_true_to_eccentric", "Pyorb.c21_eccentric_to_true", "Pyorb.c21_eccentric_to_mean", "Pyorb.c21_true_to_mean", "Pyorb.c21_mean_to_eccentric", "Pyorb.c21_mean_to_true", "Pyorb.c21_formulas", "Pyorb.c21_kep_to_equi", "Pyorb.c21_equi_to_kep", "Pyorb.c21_cart_to_kep", "Pyorb.c21_kep_to_cart", "Pyorb.c21_cart_to_equi", "Pyorb.c21_equi_to_cart"], "note": "Float arrays; integer arrays are the subject of C43. mean_to_eccentric: M is not a 0-dimensional array (with a scalar e = 0 such an M is returned as an array, np.degrees would give a scalar of the same value)."},
{"property": "C22", "status": "proved", "theorems": ["Pyorb.c22_value", "Pyorb.c22_zero_length", "Pyorb.c22_reject"], "note": "str.lower on non-ASCII characters is an arbitrary function of the character."},
{"property": "C23", "status": "partial", "theorems": ["Pyorb.c23_passthrough", "Pyorb.c23_once_partial", "Pyorb.c23_keys_once_partial", "Pyorb.c23_repeated", "Pyorb.c52_degrees"], "note": "False as stated for selections that repeat a position (converted twice) and for out_arg_inds=False (output converted anyway): c23_repeated. Proved for selections without repetition: c52_degrees with c23_once_partial and c23_keys_once_partial. The full behaviour is C52."},
{"property": "C24", "status": "proved", "theorems": ["Pyorb.c24_history", "Pyorb.c24_rebind", "Pyorb.c24_other", "Pyorb.c24_module", "Pyorb.c24_shadowed"], "note": "c24_rebind: the exception is ConstError as long as the user has not bound an attribute called ConstError (c24_shadowed shows that case)."},
{"property": "C25", "status": "partial", "theorems": ["Pyorb.c25_not_shared"], "note": "False: the overridden __setattr__ stores the shared dictionary as an ordinary entry, so instances do not share state. c25_not_shared proves the negation for all pairs of instances, names and values; the actual behaviour is C51."},
{"property": "C26", "status": "partial", "theorems": ["Pyorb.c26_refl", "Pyorb.c26_sound_partial", "Pyorb.c26_circular_partial", "Pyorb.c26_not_symmetric", "Pyorb.c26_not_transitive", "Pyorb.c26_not_same_orbit", "Pyorb.c26_planar_node"], "note": "Reflexivity proved. Symmetry and 'only the same orbit' are false, with counterexamples proved; the partial theorems say what acceptance does guarantee. The exact relation is C53."},
{"property": "C27", "status": "proved", "theorems": ["Pyorb.c27_newton", "Pyorb.c27_defined"], "note": "One curve of states solves r' = v, v' = -mu r/|r|^3 for all times, and propagated mean anomaly + exact Kepler solution + eccentric_to_true + kep_to_cart lies on it at every dt, in radians and degrees."},
{"property": "C28", "status": "partial", "theorems": ["Pyorb.Orbit.c28_only", "Pyorb.Orbit.c28_mean", "Pyorb.Orbit.c28_step_partial", "Pyorb.Orbit.c28_compose_partial", "Pyorb.Orbit.c28_period_partial", "Pyorb.Orbit.c28_false"], "note": "False in full: the mean anomaly is reduced to one turn for hyperbolas too, so propagate(0*period) moves an inbound hyperbolic object (c28_false). Proved in every mode: only the anomaly and the state change; composition and periodicity for type mean always and for the other types on ellipses where the stored anomaly is exact (solver exact there)."},
{"property": "C29", "status": "partial", "theorems": ["Pyorb.Orbit.c29_partial", "Pyorb.Orbit.c29_false"], "note": "In direct mode every successful operation, and every raising setter, keeps the two stored descriptions in agreement. The full statement is false (see the note on partially applied update)."},
{"property": "C30", "status": "partial", "theorems": ["Pyorb.Orbit.c30_kepler_partial", "Pyorb.Orbit.c30_lazy_partial", "Pyorb.Orbit.c30_lazy_formulas", "Pyorb.Orbit.c30_direct_partial", "Pyorb.Orbit.c30_false"], "note": "The full claim is false in direct mode (c30_false: an object a quarter turn past periapsis moves when type is set to eccentric, because the Cartesian state is recalculated before the new type is stored). Proved: the anomaly is re-expressed and nothing else of the Kepler set changes in every mode (c30_kepler_partial), the Cartesian elements stay in lazy mode where the conversion is invertible (c30_lazy_formulas: to the true anomaly and mean to eccentric always, true to eccentric on ellipses, to the mean anomaly where the solver is exact), and what direct mode computes instead (c30_direct_partial)."},
{"property": "C31", "status": "partial", "theorems": ["Pyorb.Orbit.c31_partial", "Pyorb.Orbit.c31_read_first", "Pyorb.Orbit.c31_mass_ignored", "Pyorb.Orbit.c31_false"], "note": "The full claim is false (c31_false: assign kepler, assign cartesian, change a, with an eccentric anomaly). Proved for every history of the kind Op.lazySafe, any kernel, both orders of reading; excluded are single-element assignments to a set waiting to be recalculated when the anomaly is not the true anomaly, changes of masses and settings, and updates that raise."},
{"property": "C32", "status": "partial", "theorems": ["Pyorb.Orbit.c32_kep_partial", "Pyorb.Orbit.c32_cart_partial", "Pyorb.Orbit.c32_anomaly_partial", "Pyorb.Orbit.c32_anomaly_formulas_partial", "Pyorb.Orbit.c32_kepler", "Pyorb.Orbit.c32_cartesian", "Pyorb.Orbit.c32_r", "Pyorb.Orbit.c32_v", "Pyorb.Orbit.c32_false", "Pyorb.Orbit.c32_false_wrapped"], "note": "The full claim is false: in lazy mode orb.a = x right after orb.cartesian = c is lost (c32_false), and in direct mode a true anomaly beyond one turn assigned to an object of type eccentric is read back reduced (c32_false_wrapped). Proved: whole sets in every mode; rows in direct and manual mode, and in lazy mode if nothing waits to be recalculated on that side; anomalies of another kind where the conversions are inverse, with the package formulas on ellipses within one turn with an exact solver."},
{"property": "C33", "status": "partial", "theorems": ["Pyorb.Orbit.c33_partial", "Pyorb.Orbit.c33_propagate_partial", "Pyorb.Orbit.c33_false", "Pyorb.Orbit.c33_false_equinoctial", "Pyorb.Orbit.c33_false_add", "Pyorb.Orbit.c33_false_update"], "note": "Proved for every entry point except assigning equinoctial, add and update with several keywords. For those the full claim is false (c33_false*): elements are stored before the read-only check, or the object grows."},
{"property": "C34", "status": "partial", "theorems": ["Pyorb.Orbit.c34_partial", "Pyorb.Orbit.c34_false", "Pyorb.Orbit.c34_false_list"], "note": "Proved for all runs of public operations apart from the recorded exceptions; the full statement is refuted by two theorems."},
{"property": "C35", "status": "partial", "theorems": ["Pyorb.Orbit.c35_getitem_partial", "Pyorb.Orbit.c35_copy_partial", "Pyorb.Orbit.c35_false"], "note": "Proved for every query in direct mode (and without automatic updates): orb[inds] and copy() answer what the original answers for the selected orbits. In lazy mode the full claim is false (c35_false): the copy loses the record of which elements are current."},
{"property": "C36", "status": "partial", "theorems": ["Pyorb.Orbit.c36_loop_partial", "Pyorb.Orbit.c36_next_first", "Pyorb.Orbit.c36_nested", "Pyorb.Orbit.c36_false", "Pyorb.Orbit.c36_nested_partial"], "note": "Proved: a single for loop visits every orbit once in order. Nested loops over one object share the iterator state, so for two or more orbits the full claim is false (c36_false, c36_nested); looping over a copy works (c36_nested_partial)."},
{"property": "C37", "status": "partial", "theorems": ["Pyorb.Orbit.c37_allocate", "Pyorb.Orbit.c37_delete", "Pyorb.Orbit.c37_add_partial", "Pyorb.Orbit.c37_add_masses", "Pyorb.Orbit.c37_add_kepler", "Pyorb.Orbit.c37_add_cartesian", "Pyorb.Orbit.c37_add_elements", "Pyorb.Orbit.c37_false"], "note": "allocate and delete are proved in full. add: the new orbits hold the given values; old orbits keep masses and one element set, and in lazy mode everything. In direct mode the other set of the old orbits is recalculated, which can change it (c37_false), so the full claim is false."},
{"property": "C38", "status": "partial", "theorems": ["Pyorb.Orbit.c38_kepler_partial", "Pyorb.Orbit.c38_cartesian_partial", "Pyorb.Orbit.c38_elements_partial", "Pyorb.Orbit.c38_false_unknown", "Pyorb.Orbit.c38_false_atomic", "Pyorb.Orbit.c38_false_mass", "Pyorb.Orbit.c38_false_vector"], "note": "Proved: an update that returns writes exactly the named elements at the selected orbits and recalculates the other set in direct mode. The full claim is false: unknown keywords are ignored, a failing update keeps what was already written, the mass cannot be updated in direct mode, and kepler= with a 6-vector is not the property assignment for two orbits."},
{"property": "C39", "status": "partial", "theorems": ["Pyorb.Orbit.c39_partial", "Pyorb.Orbit.c39_false"], "note": "The full claim is false for every value: both setters always raise (c39_false). Proved: the failed assignment leaves the object as it was."},
{"property": "C40", "status": "proved", "theorems": ["Pyorb.Orbit.c40", "Pyorb.Orbit.c40_reads"], "note": ""},
{"property": "C41", "status": "proved", "theorems": ["Pyorb.Orbit.c41", "Pyorb.Orbit.c41_state"], "note": "Ellipses. Exactly equal for an object that stores Kepler elements and for true or eccentric anomaly; for an object that stores a state with the mean anomaly, within 2 mu e tol / (a (1-e)^3) of the squared speed when the iteration limit is not reached."},
{"property": "C42", "status": "partial", "theorems": ["Pyorb.c42_ellipse_partial", "Pyorb.c42_periapsis_wrong"], "note": "Proved on ellipses. On parabolas and hyperbolas the property as stated is false: c42_periapsis_wrong proves that Orbit.periapsis is zero or negative there and is never the distance reached at anomaly 0."},
{"property": "C43", "status": "partial", "theorems": ["Pyorb.c43_cart_to_kep_int", "Pyorb.c43_anomaly_degrees_partial", "Pyorb.c43_eccentric_to_mean_int"], "note": "False as stated: integer arrays truncate (refutations). Holds for the anomaly functions with degrees=True."},
{"property": "C44", "status": "partial", "theorems": ["Pyorb.c44_pairing", "Pyorb.c44_ccontiguous_partial", "Pyorb.c44_fortran_wrong"], "note": "False as stated for Fortran-ordered input (c44_fortran_wrong); holds for C-contiguous arrays of any shape."},
{"property": "C45", "status": "proved", "theorems": ["Pyorb.c45_asymptote", "Pyorb.c45_range"], "note": ""},
{"property": "C46", "status": "proved", "theorems": ["Pyorb.Orbit.c46_calculate", "Pyorb.Orbit.c46_access"], "note": "Executions are inductive relations without a bound on nesting; existence, uniqueness and depth at most two are proved for every object and kernel."},
{"property": "C47", "status": "proved", "theorems": ["Pyorb.Orbit.c47"], "note": "With the package formulas, every update mode; the old state is what a second read of orb.cartesian returns."},
{"property": "C48", "status": "partial", "theorems": ["Pyorb.Orbit.c48_partial", "Pyorb.Orbit.c48_formulas_partial", "Pyorb.Orbit.c48_raises", "Pyorb.Orbit.c48_false"], "note": "False as stated: assigning a vector of six numbers raises TypeError in radians unless the anomaly type is mean (c48_raises), so orb.equinoctial = orb.equinoctial fails with the default settings (c48_false). Proved: the round trip for every value that is accepted (c48_partial), and with the package formulas for every admissible non-circular or exactly circular set (c48_formulas_partial)."},
{"property": "C49", "status": "proved", "theorems": ["Pyorb.c49_finite", "Pyorb.c49_symmetric", "Pyorb.c49_near"], "note": ""},
{"property": "C50", "status": "partial", "theorems": ["Pyorb.c50_parabola_partial", "Pyorb.c50_parabola_not_roundtrip"], "note": "False as stated: a comes back as +inf; the other five elements are recovered."},
{"property": "C51", "status": "proved", "theorems": ["Pyorb.c51_independent", "Pyorb.c51_keeps"], "note": ""},
{"property": "C52", "status": "proved", "theorems": ["Pyorb.c23_passthrough", "Pyorb.c52_degrees", "Pyorb.c52_index"], "note": ""},
{"property": "C53", "status": "proved", "theorems": ["Pyorb.c53_accepts", "Pyorb.c53_nan"], "note": ""},
{"property": "C54", "status": "proved", "theorems": ["Pyorb.c54_true_to_eccentric", "Pyorb.c54_eccentric_to_true", "Pyorb.c54_eccentric_to_mean", "Pyorb.c54_kepler_guess", "Pyorb.c54_mean_to_eccentric", "Pyorb.c54_true_to_mean", "Pyorb.c54_mean_to_true", "Pyorb.c54_zero_d_false"], "note": "c54_kepler_guess: np.nditer refuses empty arrays, so kepler_guess raises ValueError where the others return an empty array. c54_zero_d_false: the contract does not extend to 0-dimensional arrays."},
{"property": "C55", "status": "proved", "theorems": ["Pyorb.Orbit.c32_kepler", "Pyorb.Orbit.c32_cartesian", "Pyorb.Orbit.c32_r", "Pyorb.Orbit.c32_v"], "note": "For every kernel of numerical functions."},
{"property": "C56", "status": "proved", "theorems": ["Pyorb.Orbit.c56_kep", "Pyorb.Orbit.c56_cart", "Pyorb.Orbit.c56_anomaly"], "note": "For every kernel of numerical functions."},
{"property": "C57", "status": "proved", "theorems": ["Pyorb.Orbit.c28_only"], "note": "For every kernel of numerical functions."},
{"property": "C58", "status": "proved", "theorems": ["Pyorb.Orbit.c58"], "note": "With the package formulas."},
{"property": "C59", "status": "proved", "theorems": ["Pyorb.Orbit.c59_settings", "Pyorb.Orbit.c59_type", "Pyorb.Orbit.c59_mass"], "note": "For every kernel of numeric functions."},
{"property": "C60", "status": "proved", "theorems": ["Pyorb.Orbit.c60_kepler", "Pyorb.Orbit.c60_cartesian"], "note": "For every kernel of numeric functions."},
{"property": "C61", "status": "proved", "theorems": ["Pyorb.Orbit.c61_period", "Pyorb.Orbit.c61_apsides", "Pyorb.Orbit.c61_longitude"], "note": "Over the reals extended by NaN and infinities."},
{"property": "C62", "status": "proved", "theorems": ["Pyorb.Orbit.c62"], "note": "Ellipses. For an object that stores the mean anomaly the solver must not reach its iteration limit."},
{"property": "C63", "status": "proved", "theorems": ["Pyorb.Orbit.c63_settings", "Pyorb.Orbit.c63_unknown_type", "Pyorb.Orbit.c63_kepler", "Pyorb.Orbit.c63_cartesian", "Pyorb.Orbit.c63_kepler_names", "Pyorb.Orbit.c63_cartesian_names", "Pyorb.Orbit.c63_blank", "Pyorb.Orbit.c63_read_only"], "note": "For every kernel of numeric functions."},
{"property": "C64", "status": "proved", "theorems": ["Pyorb.Orbit.c64_names", "Pyorb.Orbit.c64_kepler", "Pyorb.Orbit.c64_cartesian", "Pyorb.Orbit.c64_init"], "note": "For every kernel of numeric functions."},
{"property": "C65", "status": "proved", "theorems": ["Pyorb.Orbit.c65", "Pyorb.Orbit.c65_direct", "Pyorb.Orbit.c65_elements"], "note": "For every kernel of numeric functions."},
{"property": "C66", "status": "proved", "theorems": ["Pyorb.Orbit.c66"], "note": "In exact arithmetic. Ellipses; the object is in direct or lazy mode."},
{"property": "C67", "status": "proved", "theorems": ["Pyorb.Orbit.c67"], "note": "In exact arithmetic. The start point is characterised by C62 (true and eccentric anomaly of one point) and Kepler's equation."},
{"property": "C68", "status": "proved", "theorems": ["Pyorb.Orbit.c68_mean", "Pyorb.Orbit.c68_compose", "Pyorb.Orbit.c68_state"], "note": "In exact arithmetic. Corrected form of the composition clause of C28, which is false as stated for types true and eccentric."},
{"property": "C69", "status": "proved", "theorems": ["Pyorb.c69_residual", "Pyorb.c69_error", "Pyorb.c69_binary64"], "note": "Relative errors of sin and sinh of the library count towards u. Standard model of rounding: relative error at most u in every operation; overflow and underflow not modelled; x**2 and x**3 are rounded products."},
{"property": "C70", "status": "proved", "theorems": ["Pyorb.c70", "Pyorb.c70_binary64"], "note": "Radians, one orbit. Standard model of rounding: relative error at most u in every operation; overflow and underflow not modelled; x**2 and x**3 are rounded products."},
{"property": "C71", "status": "proved", "theorems": ["Pyorb.c71_period", "Pyorb.c71_axis", "Pyorb.c71_period_axis", "Pyorb.c71_radius", "Pyorb.c71_speed", "Pyorb.c71_rotation", "Pyorb.c71_binary64"], "note": "Radians. Standard model of rounding: relative error at most u in every operation; overflow and underflow not modelled; x**2 and x**3 are rounded products."},
{"property": "C72", "status": "proved", "theorems": ["Pyorb.c72_solver", "Pyorb.c72_limit", "Pyorb.c72_default", "Pyorb.c72_error"], "note": "Exact arithmetic. Radians. M outside [0, 2 pi] is not covered: mean_to_eccentric does not reduce M."},
{"property": "C73", "status": "proved", "theorems": ["Pyorb.Orbit.c73_runs", "Pyorb.Orbit.c73_mean", "Pyorb.Orbit.c73_state"], "note": "Exact arithmetic; propagate itself reduces the mean anomaly to one turn before the solver is called."},
{"property": "C74", "status": "proved", "theorems": ["Pyorb.c74_node", "Pyorb.c74_turns", "Pyorb.c74_scale", "Pyorb.c74_reverse", "Pyorb.c74_mirror", "Pyorb.c74_orientation", "Pyorb.c74_turn", "Pyorb.c74_turn_planar", "Pyorb.c74_scale_back", "Pyorb.c74_reverse_back"], "note": "Exact arithmetic, radians. The theorems on inclined states use the threshold of the code (IG: i_lim < i < pi - i_lim); between exactly planar and that threshold the code treats the orbit as planar and no turn law is claimed."},
{"property": "C75", "status": "proved", "theorems": ["Pyorb.Orbit.c75_history", "Pyorb.Orbit.c75_one"], "note": "Direct mode and manual mode (auto_update=False); in lazy mode a selection forgets which side is up to date (C35). Operations that change the number of orbits, iteration, update of some orbits and the public calc_*_anomaly methods are not in the history."},
{"property": "C76", "status": "proved", "theorems": ["Pyorb.c76_solver", "Pyorb.c76_limit", "Pyorb.c76_default", "Pyorb.c76_error"], "note": "Exact arithmetic. The inbound leg M < 0 is not covered: below -0.9 e the solver returns NaN (C12)."},
{"property": "C77", "status": "proved", "theorems": ["Pyorb.c77_newton", "Pyorb.c77_defined"], "note": "Exact arithmetic; Kepler's equation is solved exactly in this property (C79 is the version with the solver)."},
{"property": "C78", "status": "partial", "theorems": ["Pyorb.c78_partial", "Pyorb.c78_defined", "Pyorb.c78_false", "Pyorb.Orbit.c78_orbit_false"], "note": "False as stated: mean_motion is sqrt(mu/a^3) with a = periapsis distance, where Barker's equation in the form used by eccentric_to_mean needs sqrt(mu/(2 a^3)). c78_false and Orbit.c78_orbit_false prove that on every parabola the object moves sqrt(2) times too fast. c78_partial: with the right rate the conversions follow Newton's equations."},
{"property": "C79", "status": "proved", "theorems": ["Pyorb.Orbit.c79", "Pyorb.Orbit.c79_mean"], "note": "Exact arithmetic. c79_mean says for which objects the start point is what the object answers: all that store the mean or eccentric anomaly, and the outbound leg up to E < 2 pi if the true anomaly is stored (C08)."},
{"property": "C80", "status": "partial", "theorems": ["Pyorb.c80_solver_partial", "Pyorb.c80_limit_partial", "Pyorb.c80_default_partial", "Pyorb.c80_false"], "note": "False as stated: at M = -0.4 e the starting value is log(1) = 0, the first step is 0.4 e/(e-1), and for every 1 < e <= 1.00001 the solver is still below E = -10000 after 5000 iterations where the exact root is above -2 (c80_false). Proved: e >= 2 with -0.75 e <= M <= 0, and every e > 1 with -0.75 e <= M <= -0.6 e. Open: e < 2 away from 1 with M > -0.6 e, and -0.9 e < M < -0.75 e."},
{"property": "C81", "status": "proved", "theorems": ["Pyorb.c81_true_ellipse", "Pyorb.c81_mean_ellipse", "Pyorb.c81_true_hyperbola", "Pyorb.c81_mean_hyperbola", "Pyorb.c81_true_parabola", "Pyorb.c81_mean_parabola", "Pyorb.c81_false"], "note": "Exact arithmetic inside the functions. c81_false is the counterexample on a parabola before periapsis (reduction of the parabolic anomaly modulo 2 pi, as in C08)."},
{"property": "C82", "status": "proved", "theorems": ["Pyorb.Orbit.c82"], "note": "Corrected form of the anomaly clause of C32, with assignError as the bound for each pair of kinds."},
{"property": "C83", "status": "proved", "theorems": ["Pyorb.Orbit.c83_agree", "Pyorb.Orbit.c83_return"], "note": "Corrected form of the periodicity clause of C28, which is false as stated. c83_return asks for a stored mean anomaly within one turn, as the initial state then comes from the solver."},
{"property": "C84", "status": "proved", "theorems": ["Pyorb.c84_solver", "Pyorb.c84_limit", "Pyorb.c84_default", "Pyorb.c84_error", "Pyorb.c84_turns"], "note": "Complements C72, which covers all e < 1 for M within one turn. Beyond e = 0.7 the extrapolated starting value can lie far beyond pi; not covered. Exact arithmetic."},
{"property": "C85", "status": "proved", "theorems": ["Pyorb.c85_finite", "Pyorb.c85_on_orbit", "Pyorb.c85_beyond", "Pyorb.c85_negative"], "note": "Exact arithmetic. c85_beyond is a finding: the other branch of the hyperbola is returned silently."},
{"property": "C86", "status": "proved", "theorems": ["Pyorb.c86_finite", "Pyorb.c86_radial", "Pyorb.c86_centre"], "note": "Exact arithmetic; zero is unsigned."},
{"property": "C87", "status": "proved", "theorems": ["Pyorb.c87", "Pyorb.c87_numbers", "Pyorb.c87_radial"], "note": "Overflow and underflow are not modelled. Nearest.sqrt_sq: the square root of a rounded square is the number itself."},
{"property": "C88", "status": "proved", "theorems": ["Pyorb.c88_e", "Pyorb.c88_a", "Pyorb.c88_i", "Pyorb.c88_binary64"], "note": "Overflow and underflow are not modelled. Errors of omega, Omega and nu are not bounded."},
{"property": "C89", "status": "proved", "theorems": ["Pyorb.c89", "Pyorb.c89_ellipse", "Pyorb.c89_binary64", "Pyorb.c89_parabola"], "note": "Overflow and underflow are not modelled."},
{"property": "C90", "status": "proved", "theorems": ["Pyorb.c90", "Pyorb.c90_binary64"], "note": "Overflow and underflow are not modelled. Errors of omega, Omega and nu are not bounded."},
{"property": "C91", "status": "proved", "theorems": ["Pyorb.c91_angular_momentum", "Pyorb.c91_parabolic_angular_momentum", "Pyorb.c91_orbital_distance", "Pyorb.c91_elliptic_radius", "Pyorb.c91_parabolic_radius", "Pyorb.c91_hyperbolic_radius", "Pyorb.c91_orbital_speed", "Pyorb.c91_orbital_period", "Pyorb.c91_semi_major_axis", "Pyorb.c91_asymptote"], "note": "Overflow of integer and python arithmetic is not modelled."},
{"property": "C92", "status": "proved", "theorems": ["Pyorb.c92_six", "Pyorb.c92_long", "Pyorb.c92_lengths", "Pyorb.c92_dims", "Pyorb.c92_short", "Pyorb.c92_one"], "note": "The accepted pairs of six elements are C53 and C26."},
{"property": "C93", "status": "proved", "theorems": ["Pyorb.c93", "Pyorb.c93_binary64"], "note": "Overflow and underflow are not modelled; library functions are correct to a fixed number of rounding units."},
{"property": "C94", "status": "proved", "theorems": ["Pyorb.c94", "Pyorb.c94_binary64"], "note": "Overflow and underflow are not modelled; library functions are correct to a fixed number of rounding units."},
{"property": "C95", "status": "proved", "theorems": ["Pyorb.Orbit.c95_accepts", "Pyorb.Orbit.c95_refuses", "Pyorb.Orbit.c95_unique", "Pyorb.Orbit.c95_constructor"], "note": "Strings with characters outside ASCII are modelled with an arbitrary lower() and an arbitrary notion of white space for those characters; the theorems on the setter are about ASCII strings, the one on the constructor about all strings."},
{"property": "C96", "status": "proved", "theorems": ["Pyorb.c96", "Pyorb.c96_default", "Pyorb.c96_binary64"], "note": "Removes the hypothesis of C69 that the iteration limit is not reached, for e <= 0.7 and degree 5."},
{"property": "C97", "status": "proved", "theorems": ["Pyorb.c97_true", "Pyorb.c97_eccentric", "Pyorb.c97_mean", "Pyorb.c97_true_to_mean", "Pyorb.c97_round_trip", "Pyorb.c97_mean_to_true"], "note": "Scalars, radians, ellipses."},
{"property": "C98", "status": "proved", "theorems": ["Pyorb.Orbit.c98", "Pyorb.Orbit.c98_returns", "Pyorb.Orbit.c98_default"], "note": "The class model on rounded numbers (kernel rfKern: the same definitions as for exact arithmetic, fxKern_np). mu is the value G*(M0+m) is computed to."},
{"property": "C99", "status": "proved", "theorems": ["Pyorb.c99_pos", "Pyorb.c99_neg", "Pyorb.c99_zero", "Pyorb.c99_cancel"], "note": "c99_cancel is a defect of the code: c2 and c3 should be evaluated by their series for small arguments."}
]}
