{"id": "C01", "title": "Kepler -> Cartesian -> Kepler is the identity", "statement": "For every canonical, non-parabolic set of Keplerian elements (a>0, e>=0, e!=1, angles in the documented ranges, omega/Omega zero when the orbit is circular/planar, the anomaly on the physical branch), cart_to_kep(kep_to_cart(kep, mu), mu) returns exactly kep (exact arithmetic).", "quantifier": "all real a, e, i, omega, Omega, nu in the canonical domain, all mu>0, ellipse and hyperbola, inclined, planar prograde, planar retrograde and circular cases", "why_tests_cant": "a 6-dimensional continuum with case boundaries (quadrants, planar, circular, retrograde); tests sample a grid", "anchors": ["pyorb/kepler.py::kep_to_cart", "pyorb/kepler.py::cart_to_kep", "pyorb/kepler.py::euler_rotation_matrix", "pyorb/kepler.py::orbital_distance"]}
{"id": "C02", "title": "Cartesian -> Kepler -> Cartesian is the identity", "statement": "For every Cartesian state with non-zero angular momentum that is not parabolic, kep_to_cart(cart_to_kep(x, mu), mu) = x, whenever the state is outside the e_lim/i_lim bands or exactly circular/planar.", "quantifier": "all position/velocity pairs in R^3 x R^3 with r x v != 0, all mu>0", "why_tests_cant": "continuum of states; all quadrants of three angles", "anchors": ["pyorb/kepler.py::cart_to_kep", "pyorb/kepler.py::kep_to_cart"]}
{"id": "C03", "title": "kep_to_cart produces the orbit described by the elements", "statement": "The state returned by kep_to_cart has specific energy -mu/(2a) (ellipse), +mu/(2a) (hyperbola) or 0 (parabola, a = periapsis distance), angular momentum vector of magnitude sqrt(mu p) along the orbit normal (sin Omega sin i, -cos Omega sin i, cos i), eccentricity vector of length e towards periapsis, and radius p/(1+e cos nu).", "quantifier": "all element sets with a>0, e>=0, 1+e cos nu > 0, all mu>0", "why_tests_cant": "conservation laws over a continuum", "anchors": ["pyorb/kepler.py::kep_to_cart"]}
{"id": "C04", "title": "cart_to_kep output ranges and degenerate-case conventions", "statement": "For every state with non-zero angular momentum: e>=0, a>0 when not parabolic, i in [0,pi], omega, Omega, nu in [0,2pi]; Omega = 0 for planar orbits, omega = 0 for circular orbits (README conventions).", "quantifier": "all Cartesian states with r x v != 0, all mu>0", "why_tests_cant": "range claim over a continuum with special values at the edges", "anchors": ["pyorb/kepler.py::cart_to_kep", "README.md"]}
{"id": "C05", "title": "kep_to_cart does not modify the caller's elements", "statement": "After kep_to_cart(kep) returns, the array passed in holds the same elements as before the call.", "quantifier": "all element arrays, degrees on or off", "why_tests_cant": "in-place updates inside the function happen only on particular columns (e>1)", "anchors": ["pyorb/kepler.py::kep_to_cart"]}
{"id": "C06", "title": "A conversion that raises leaves the caller's array untouched", "statement": "If cart_to_kep or kep_to_cart raises (wrong type, wrong number of rows, gravitational parameter of the wrong length) the array passed in keeps its shape and its values.", "quantifier": "all inputs and every raise point", "why_tests_cant": "every failure point between the in-place changes and their undoing", "anchors": ["pyorb/kepler.py::cart_to_kep", "pyorb/kepler.py::kep_to_cart"]}
{"id": "C07", "title": "Vectorised conversion equals one-at-a-time conversion and never exposes uninitialised memory", "statement": "For cart_to_kep, kep_to_cart, kep_to_equi, equi_to_kep and the anomaly conversions the result for object j depends only on object j's input, not on the other objects nor on the previous content of the buffers numpy.empty returns.", "quantifier": "all batch sizes, all column values (including NaN), all uninitialised buffer contents", "why_tests_cant": "uninitialised memory and cross-talk between mask cases are not reproducible in a test", "anchors": ["pyorb/kepler.py::cart_to_kep", "pyorb/kepler.py::true_to_eccentric", "pyorb/kepler.py::eccentric_to_true", "pyorb/kepler.py::eccentric_to_mean", "pyorb/kepler.py::stumpff0"]}
{"id": "C08", "title": "True and eccentric anomaly are mutually inverse", "statement": "eccentric_to_true(true_to_eccentric(nu,e),e) = nu and true_to_eccentric(eccentric_to_true(E,e),e) = E for anomalies in [0,2pi) on an ellipse, and on the reachable branch of a parabola/hyperbola.", "quantifier": "all e>=0 and all anomalies in the domain", "why_tests_cant": "continuum; branch wrap-around at pi", "anchors": ["pyorb/kepler.py::true_to_eccentric", "pyorb/kepler.py::eccentric_to_true"]}
{"id": "C09", "title": "mean_to_eccentric solves Kepler's equation to the requested tolerance", "statement": "Unless the iteration limit was reached, the returned eccentric anomaly satisfies |eccentric_to_mean(E,e) - M| < tol; for a parabola it satisfies it exactly.", "quantifier": "all M, all e in [0,1) and e=1, every tol>0, every degree>=2", "why_tests_cant": "the solver is an iteration whose path depends on M and e", "anchors": ["pyorb/kepler.py::mean_to_eccentric", "pyorb/kepler.py::laguerre_solve_kepler", "pyorb/kepler.py::eccentric_to_mean"]}
{"id": "C10", "title": "Kepler's equation has one solution and the solver's answer is within tol/|1-e| of it", "statement": "For e != 1 there is exactly one E with eccentric_to_mean(E,e)=M and any E the solver accepts differs from it by at most tol/|1-e|.", "quantifier": "all real M, all e>=0, e != 1, all tolerances", "why_tests_cant": "existence, uniqueness and error bound over the reals", "anchors": ["pyorb/kepler.py::laguerre_solve_kepler", "pyorb/kepler.py::eccentric_to_mean"]}
{"id": "C100", "title": "With rounding, rotation matrices are accurate and nearly orthogonal", "statement": "In arithmetic with relative rounding errors of at most u per operation: every entry of rot_mat_x, rot_mat_y and rot_mat_z is within 2 u of the rotation by exactly the given angle; every entry of euler_rotation_matrix is within 13 u of the product of the rotations by Omega about z, inc about x and omega about z, for angles in degrees within (13 + 7 (|Omega| + |inc| + |omega|)) u with the angles counted in radians; M^T M of the computed matrix differs from the identity by at most 7 times that.", "quantifier": "all ways of rounding with u <= 1e-6, all real angles, both units", "why_tests_cant": "continuum of angles, all rounding behaviours", "anchors": ["pyorb/kepler.py::rot_mat_x", "pyorb/kepler.py::rot_mat_y", "pyorb/kepler.py::rot_mat_z", "pyorb/kepler.py::euler_rotation_matrix"]}
{"id": "C101", "title": "With rounding, get_G has a relative error of at most 18 units of rounding", "statement": "In arithmetic with relative rounding errors of at most u per operation (literals included), for every length, mass and time unit given by name, in any letter case, with separators in the mass, or as a float, with a non-zero length unit, get_G returns 6.6743e-11 m t^2 / l^3 with a relative error of at most 18 u.", "quantifier": "all ways of rounding with u <= 1e-6, all unit names and all real unit sizes", "why_tests_cant": "all floats as unit sizes, all rounding behaviours", "anchors": ["pyorb/unit.py::get_G"]}
{"id": "C102", "title": "With rounding, equinoctial elements are converted stably in both directions", "statement": "In arithmetic with relative rounding errors of at most u per operation, radians, one element set: kep_to_equi returns h and k within (3 + 2 |omega + Omega|) u e, p and q within 8 u / cos(i/2)^2, the longitude within (61 + 8 (|omega| + |Omega| + |nu|)) u up to whole turns; equi_to_kep returns a exactly, e within 6 u e, i within 12 u, and up to whole turns Omega within 85 u, omega within 112 u, nu within (88 + 7 |lambda|) u; the round trip kep -> equi -> kep returns e within 6 u e, i within 16 u, Omega within 85 u, omega and nu within (200 + 10 (|omega| + |Omega| + |nu|)) u up to whole turns. Small eccentricities and inclinations do not amplify the errors, as long as e is not within 7 units of rounding of e_lim.", "quantifier": "all ways of rounding with u <= 1e-6, all elements with 0 <= i < pi and e above e_lim (1 + 7 u), or below e_lim with omega = 0", "why_tests_cant": "continuum of elements, all rounding behaviours; the bounds have to be uniform in small e and i", "anchors": ["pyorb/kepler.py::kep_to_equi", "pyorb/kepler.py::equi_to_kep"]}
{"id": "C103", "title": "Objects share no arrays with each other or with the caller, except m, solver_options and a mutable epoch", "statement": "In every program made of constructor calls, operations, queries, assignments and in-place changes of the arrays the caller has: (1) an object takes the value its own operations compute, whatever arrays are shared; (2) what the constructor, indexing, copy() and iteration return keeps its value until the program does something with this object, whatever happens to the original, to other objects and to the arrays of the caller, apart from an object in epoch that is changed in place; (3) an operation on one object changes another one only if both were given the same array as m and the operation assigns masses; (4) the caller changes an object by writing into an array only if the array is its m, solver_options or epoch; (5) an array returned by a property getter is new, and keeps its content until the caller writes into it or assigns it as m. After orb.m = arr, writing into arr changes the object; a copy shares the object in epoch with the original.", "quantifier": "all programs, all objects, all kernels; for the arrays the class keeps for itself, in place or replaced by a new array at every operation", "why_tests_cant": "all interleavings of operations on several objects and of writes into arrays got from them", "anchors": ["pyorb/orbit.py::Orbit.__getitem__", "pyorb/orbit.py::Orbit.copy", "pyorb/orbit.py::Orbit.__next__", "pyorb/orbit.py::Orbit.__init__", "pyorb/orbit.py::Orbit.kepler", "pyorb/orbit.py::Orbit.cartesian", "pyorb/orbit.py::Orbit.add", "pyorb/orbit.py::Orbit.delete", "pyorb/orbit.py::Orbit.allocate", "pyorb/orbit.py::Orbit.update"]}
{"id": "C104", "title": "The anomaly conversions on hyperbolas are accurate with rounding", "statement": "In arithmetic with unit roundoff u <= 1e-6, for e > 1 and k = sqrt((e+1)/(e-1)): eccentric_to_true returns, for every hyperbolic anomaly E, a number in [0, 6.29] within 90 u of an exact true anomaly of the point; eccentric_to_mean has an error of at most 4 u (e |sinh E| + |E|). For a true anomaly in [0, pi) whose exact hyperbolic anomaly E is at most 6 and at least 800 k cosh(E) u: true_to_eccentric has an error of at most (16 k cosh E + 34) u, true_to_mean of at most 170 e k cosh(E)^2 u, and eccentric_to_true after true_to_eccentric gives the angle back up to whole turns and (98 + 34 k) u.", "quantifier": "all ways of rounding with u <= 1e-6, all e > 1 x all hyperbolic anomalies, or all true anomalies of the outbound leg in the stated range", "why_tests_cant": "errors of elementary functions and cancellation near the asymptote, for every rounding and every eccentricity", "anchors": ["pyorb/kepler.py::true_to_eccentric", "pyorb/kepler.py::eccentric_to_true", "pyorb/kepler.py::eccentric_to_mean", "pyorb/kepler.py::true_to_mean"]}
{"id": "C105", "title": "The Kepler solver converges with rounding on hyperbolas with e >= 1.2", "statement": "For e >= 1.2 and a mean anomaly M >= 0 with exact hyperbolic anomaly Es, in arithmetic with unit roundoff u, for a tolerance tol <= 1e-6 with 100 u (M + e)(10 + Es) <= tol: the iteration limit is not reached. The solver stops after at most N steps when 5 (M + e) 0.95^N <= tol and max_iter > N; mean_to_eccentric returns E with |e sinh E - E - M| < tol + 19 u (M + e), and |E - Es| is at most that over e - 1. mean_to_true differs from an exact true anomaly by at most 90 u + sqrt((e+1)/(e-1)) (tol + 19 u (M + e))/(e - 1). With the default options in double precision this covers every M + e <= 7.", "quantifier": "all ways of rounding, all e >= 1.2, all M >= 0, all tolerances and iteration limits in the stated relation", "why_tests_cant": "convergence of the computed iteration for every rounding of every operation; tests see one rounding and a few anomalies", "anchors": ["pyorb/kepler.py::laguerre_solve_kepler", "pyorb/kepler.py::kepler_guess", "pyorb/kepler.py::mean_to_eccentric", "pyorb/kepler.py::mean_to_true"]}
{"id": "C106", "title": "With rounding, the parabolic conversions are accurate except on the inbound leg, where Barker's formula cancels", "statement": "In arithmetic with unit roundoff u <= 1e-6 and e = 1 (E = tan(nu/2), M = E + E^3/3): eccentric_to_true returns, for every E, a number in [0, 6.29] within 80 u of an exact true anomaly; eccentric_to_mean has a relative error of at most 6 u. For nu in [0, pi) with 20 u <= E <= 6: true_to_eccentric has an error of at most (3 (1 + E^2) + 20) u, true_to_mean of at most 40 (1 + E^2)^2 u, and eccentric_to_true after true_to_eccentric gives the angle back up to whole turns and 130 u. For every M >= 0 mean_to_eccentric has an error of at most 6 u (|E| + 2) and mean_to_true of at most 130 u. For M < 0 the bounds grow by 1 + M^2: 36 (1 + M^2) u (|E| + 2) and (80 + 288 (1 + M^2)) u when 200 (1 + M^2) u <= 1; with rounding to nearest mean_to_eccentric(-2**k, 1) is -inf for every k >= 27.", "quantifier": "all ways of rounding with u <= 1e-6 (for the overflow: all that round to nearest), all E, M and the stated range of nu", "why_tests_cant": "cancellation that depends on the size and sign of M, for every rounding", "anchors": ["pyorb/kepler.py::true_to_eccentric", "pyorb/kepler.py::eccentric_to_true", "pyorb/kepler.py::eccentric_to_mean", "pyorb/kepler.py::true_to_mean", "pyorb/kepler.py::mean_to_eccentric", "pyorb/kepler.py::mean_to_true"]}
{"id": "C107", "title": "The Kepler solver converges with rounding on every ellipse, up to e = 1 - 25 u", "statement": "In arithmetic with relative rounding errors of at most u <= 1e-9 per operation, for 0 <= e <= 1 - 25 u (e < 1) and a mean anomaly between 0 and 2 pi + 40 u, for a tolerance between 9000 u and 1e-5: laguerre_solve_kepler does not reach its iteration limit. It stops after at most 2 K steps as soon as 7 * 0.85^K < 0.999 tol and max_iter > 2 K; mean_to_eccentric then solves Kepler's equation, evaluated exactly, up to tol + 9 u, and is within (tol + 9 u)/(1-e) of the exact eccentric anomaly; mean_to_true is within kappa (tol + 9 u)/(1-e) + (85 + 15 kappa) u of an exact true anomaly, kappa = sqrt((1+e)/(1-e)). With the default options in double precision: at most 366 steps, a residual below 1.002e-12, errors of at most 1.002e-12/(1-e) and 1.02e-12 kappa/(1-e).", "quantifier": "all ways of rounding with u <= 1e-9, all e up to 1 - 25 u, all mean anomalies of one turn, all tolerances in the range", "why_tests_cant": "for e near 1 the steps are ill-conditioned near perihelion; no number of sampled (M, e) pairs shows that none of them cycles", "anchors": ["pyorb/kepler.py::laguerre_solve_kepler", "pyorb/kepler.py::_laguerre_solve_kepler", "pyorb/kepler.py::get_kepler_guess", "pyorb/kepler.py::mean_to_eccentric", "pyorb/kepler.py::mean_to_true"]}
{"id": "C108", "title": "Orbit.propagate with rounding stays close to the Newtonian motion on every ellipse, up to e = 1 - 300 u", "statement": "For an elliptic orbit with 0 <= e <= 1 - 300 u (radians) of an object with automatic updates or direct_update, in arithmetic with relative rounding errors of at most u <= 1e-9 per operation and solver options under which C107 applies: there is a solution of Newton's equations of motion that starts at the exact point the elements describe, and after any number m >= 1 of calls of propagate, with time steps of either sign that add up to D (their absolute values to T), the position read from orb.cartesian differs from that of the solution at time D by at most a/(1-e) (t + (2000 kappa m + 14 kappa |x| + 18 n T) u), the velocity by at most a n/(1-e)^2 times the same, where kappa = sqrt((1+e)/(1-e)), n = sqrt(mu/a^3), x is the stored anomaly at the start, and t is the tolerance of the solver, times m unless the object stores the mean anomaly. With the default options in double precision t is 1.01e-12 or 1.01e-12 m.", "quantifier": "all ways of rounding with u <= 1e-9, all elliptic elements with e up to 1 - 300 u, all three stored anomalies, all sequences of time steps", "why_tests_cant": "the errors of eccentric orbits are largest near perihelion and accumulate over calls; sampled runs give no bound", "anchors": ["pyorb/orbit.py::Orbit.propagate", "pyorb/orbit.py::Orbit.calculate_cartesian", "pyorb/orbit.py::Orbit.cartesian", "pyorb/orbit.py::Orbit.mean_motion", "pyorb/kepler.py::mean_to_eccentric", "pyorb/kepler.py::mean_to_true", "pyorb/kepler.py::true_to_mean", "pyorb/kepler.py::kep_to_cart"]}
{"id": "C109", "title": "Orbit.propagate with rounding and angles in degrees stays close to the Newtonian motion on every ellipse, up to e = 1 - 300 u", "statement": "The property C108 for an object with degrees=True, which holds its anomaly, inclination, argument of periapsis and node in degrees, converts them with rounding at every use and reduces the mean anomaly modulo 360: there is a solution of Newton's equations of motion that starts at the exact point the elements describe, and after any number m >= 1 of calls of propagate, with time steps of either sign that add up to D (their absolute values to T), the position read from orb.cartesian differs from that of the solution at time D by at most a/(1-e) (t + (2300 kappa m + 23 kappa |x| + 13 n T + 40 (|i| + |om| + |OM|)) u), the velocity by at most a n/(1-e)^2 times the same, where kappa = sqrt((1+e)/(1-e)), n = sqrt(mu/a^3), x is the stored anomaly at the start and i, om, OM the stored angles, all in radians here, and t is the tolerance of the solver, times m unless the object stores the mean anomaly. With the default options in double precision t is 1.01e-12 or 1.01e-12 m.", "quantifier": "all ways of rounding with u <= 1e-9, all elliptic elements with e up to 1 - 300 u, all three stored anomalies, all sequences of time steps", "why_tests_cant": "a conversion left out, done twice or with the wrong modulus shows only for some angles; sampled runs give no bound on the accumulated error", "anchors": ["pyorb/orbit.py::Orbit.propagate", "pyorb/orbit.py::Orbit.calculate_cartesian", "pyorb/orbit.py::Orbit.cartesian", "pyorb/orbit.py::Orbit.mean_motion", "pyorb/kepler.py::mean_to_eccentric", "pyorb/kepler.py::mean_to_true", "pyorb/kepler.py::true_to_mean", "pyorb/kepler.py::kep_to_cart"]}
{"id": "C11", "title": "The Kepler solver always terminates within its iteration limit", "statement": "laguerre_solve_kepler returns after at most max(1,max_iter) iterations, the reported count is the number of iterations performed, and a start that already meets the tolerance is returned unchanged with count 0.", "quantifier": "all starting points, M, e, tol, max_iter, degree, including NaN starts", "why_tests_cant": "loop termination for all inputs", "anchors": ["pyorb/kepler.py::laguerre_solve_kepler"]}
{"id": "C110", "title": "Orbit.propagate with rounding stays close to the Newtonian motion on hyperbolas", "statement": "For a hyperbolic orbit, e > 1, of an object with automatic updates, angles in radians and any anomaly type, in an arithmetic with unit roundoff u with 2000 u (top + e) <= e - 1, there is a solution of Newton's equations of motion that at time 0 is at the exact point with the mean anomaly M the object answers. For every time step d after which the mean anomaly M + n d lies between 0 and a bound top <= 2 pi, with (62 + 5|M| + 18 n|d|) u to spare on both sides, propagate returns and the position read from orb.cartesian differs from that of the solution at time d by at most a (kappa (tol + (19 (top+e) + 21 + 5|M| + 18 n|d|) u) + 4800 (top+e)^2/(e-1) u), the velocity by at most a n ((tol + ...)/(e-1)^2 + kappa 1300 (top+e)/(e-1) u), where kappa = sqrt((e+1)/(e-1)), n = sqrt(mu/a^3), the tolerance tol of the solver is at least 100 u (top+e)(10+S) and at most 1e-9 if e < 1.2, and S is the hyperbolic anomaly of top. If the object stores the mean anomaly this holds for any number m of calls that stay in the range, with 53 m u in place of 21 u. With the default options in double precision tol is at most 1.01e-12; top = 7 - e is allowed for e >= 1.2 and top = 6.9 - e for e >= 1 + 2e-12. The mean anomaly answered is the stored number, or that of the stored point up to rounding errors.", "quantifier": "all ways of rounding, all hyperbolic elements, all three stored anomalies, all time steps that stay on the outbound leg up to the bound", "why_tests_cant": "sampled runs give no bound on the errors over all orbits and ways of rounding; those of the hyperbolic functions grow with the distance", "anchors": ["pyorb/orbit.py::Orbit.propagate", "pyorb/orbit.py::Orbit.calculate_cartesian", "pyorb/orbit.py::Orbit.cartesian", "pyorb/orbit.py::Orbit.mean_anomaly", "pyorb/orbit.py::Orbit.mean_motion", "pyorb/kepler.py::mean_to_eccentric", "pyorb/kepler.py::mean_to_true", "pyorb/kepler.py::true_to_mean", "pyorb/kepler.py::kep_to_cart"]}
{"id": "C111", "title": "The Kepler solver converges with rounding on every hyperbola", "statement": "For every e > 1, however close to 1, and a mean anomaly M >= 0 with exact hyperbolic anomaly Es, in arithmetic with unit roundoff u, for a tolerance tol <= 1e-9 with 100 u (M + e)(10 + Es) <= tol: the iteration limit is not reached. The solver stops after at most N steps when 15 (M + e) 0.9^N <= tol and max_iter > N; mean_to_eccentric returns E with |e sinh E - E - M| < tol + 19 u (M + e), |E - Es| is at most that over e - 1, and |E - Es|^3 at most 24 times that. mean_to_true differs from an exact true anomaly by at most 90 u + sqrt((e+1)/(e-1)) (tol + 19 u (M + e))/(e - 1). With the default options in double precision this covers every e > 1 with M + e <= 6.9, with at most 320 steps, and |E - Es| <= 3e-4 whatever e.", "quantifier": "all ways of rounding, all e > 1, all M >= 0, all tolerances and iteration limits in the stated relation", "why_tests_cant": "near e = 1 the slope at the start of the iteration is nearly zero and the subtractions cancel; whether every rounding of them still contracts cannot be sampled", "anchors": ["pyorb/kepler.py::laguerre_solve_kepler", "pyorb/kepler.py::kepler_guess", "pyorb/kepler.py::mean_to_eccentric", "pyorb/kepler.py::mean_to_true"]}
{"id": "C112", "title": "With rounding, cart_to_kep returns no angle strictly between 0 and 1.49e-8", "statement": "In arithmetic that rounds to the nearest number with 53 digits, for every array of states (also with NaN) and every mu, an inclination returned by cart_to_kep is 0 or at least 1.49e-8, and a node, argument of periapsis or true anomaly is 0, the computed 2 pi, or at least 1.49e-8 away from both; in degrees no angle lies strictly between 0 and 8.53e-7. So a true anomaly nu between 0 and 1.49e-8 is changed by the conversion to a state and back by at least min(nu, 1.49e-8 - nu) - 2e-14 as an angle, for every ellipse in the domain of C94: about 7e-9 in the middle, where rounding errors of the elements are 1e-16.", "quantifier": "all states, all mu, all ways of breaking ties and of rounding elementary functions; the round trip: all ellipses with e and sin i not lost in rounding", "why_tests_cant": "a gap in the set of returned values is a statement about all inputs; random states almost never lie this close to an apse or node, and the error is 1e-8, below usual test tolerances", "anchors": ["pyorb/kepler.py::cart_to_kep", "pyorb/kepler.py::kep_to_cart"]}
{"id": "C113", "title": "Orbit.propagate with rounding stays close to the Newtonian motion on hyperbolas, for objects that use degrees", "statement": "For a hyperbolic orbit, e > 1, of an object with degrees=True and automatic updates, of any anomaly type, in an arithmetic with unit roundoff u with 2000 u (top + e) <= e - 1, there is one solution c of Newton's equations which at time 0 is at the point with the mean anomaly M the object answers (in degrees), in the plane of the stored angles. For every d after which the mean anomaly M + n d (in radians) is between 0 and top, up to (50 + 2|M| + 13 n|d|) u, propagate(d) returns and orb.cartesian is within a (sqrt((e+1)/(e-1)) (1.25 tol + (19 (top + e) + 27 + 2|M| + 13 n|d|) u) + (4800 (top + e)^2/(e - 1) + 75 (top + e) (|Omega| + |i| + |omega|)) u) of the position of c at d; a similar bound holds for the velocity. top is at most 2 pi, and tol, top and the iteration limit are related as in C110. For objects that store the mean anomaly the same holds after any number m of calls, with 20 m u instead of 7 u. If the eccentric anomaly E is stored, the mean anomaly answered is within 8 (e cosh E + 1)(1 + 2|E|) u of e sinh E - E. With the default options in double precision tol is at most 1.01e-12; top = 7 - e is allowed for e >= 1.2 and top = 6.9 - e for e >= 1 + 2e-12.", "quantifier": "all ways of rounding, all hyperbolic elements in degrees, all time steps that keep the mean anomaly in the stated range, any number of calls", "why_tests_cant": "the bound is over all ways of rounding, all orbits and histories; a missing or doubled conversion between degrees and radians on one path shows only for some settings", "anchors": ["pyorb/orbit.py::Orbit.propagate", "pyorb/orbit.py::Orbit.cartesian", "pyorb/orbit.py::Orbit.mean_anomaly", "pyorb/kepler.py::mean_to_true", "pyorb/kepler.py::kep_to_cart"]}
{"id": "C114", "title": "With rounding, kep_to_cart of what cart_to_kep computed is close to the state it started from", "statement": "For a state (r, v) on an ellipse with elements a, 3e-9 <= e < 1, i, omega, Omega, nu, where sin i > 0, in an arithmetic with unit roundoff u with 10^6 u/(1-e) <= e sin i and 200 u/(1-e) + 1e-16 <= sin(i)^2: kep_to_cart of the elements that cart_to_kep computes, both with rounding, is a state (r', v') with |r' - r| <= a/(1-e) B and |v' - v| <= a n/(1-e)^2 B, where n is the mean motion and B is 13 (T_Omega + T_i + T_omega) + 4 sqrt((1+e)/(1-e)) T_nu + 5000 u/(1-e). Each T is 8 eps/(|sin| + sqrt(eps)) of the angle, with eps the error of its computed cosine: 140 u/(1-e) for i, 120 u/((1-e) sin i) for Omega, 4000 u/((1-e) e sin i) for omega and 2000 u/e for nu. So B is at most 11000 sqrt((1+e)/(1-e)) sqrt(u/((1-e) e sin i)) always, and in double precision it is at most 5e-7 if e is between 0.1 and 0.9 and the sines of i, Omega, omega and nu are all at least 0.1 in absolute value.", "quantifier": "all ways of rounding to nearest, all states on such ellipses", "why_tests_cant": "the bound is over all ways of rounding and all orbits; tests compare a few states at one tolerance, and the loss near angles 0 and pi is seen only there", "anchors": ["pyorb/kepler.py::cart_to_kep", "pyorb/kepler.py::kep_to_cart"]}
{"id": "C115", "title": "With rounding, an orbit set by its Cartesian state and propagated follows the Newtonian motion through that state", "statement": "A state c on an ellipse, with elements as in C114, is assigned to orb.cartesian of an object in radians with automatic updates, of any anomaly type, in an arithmetic that rounds to nearest with unit roundoff u <= 1e-9. There is one solution of Newton's equations with exactly the state c at time 0. After any number m of calls of propagate with time steps of either sign that add up to D, and their absolute values to T, the position read from orb.cartesian is within a/(1-e) B of that of the solution at D and the velocity within a n/(1-e)^2 B. B is 1.04 tol (times m unless the mean anomaly is stored) + 13 (T_Omega + T_i + T_omega) + 4 sqrt((1+e)/(1-e)) T_nu + (5400/(1-e) + 2000 sqrt((1+e)/(1-e)) m + 230 n T/(1-e)) u, with the T of the angles as in C114. In double precision with the default options B is at most 4.7e-7 + 2.1e-12 m + 2.6e-13 n T if e is between 0.1 and 0.9 and the sines of i, Omega, omega and nu are at least 0.1 in absolute value.", "quantifier": "all ways of rounding to nearest, all states on such ellipses, all numbers and signs of time steps, all anomaly types", "why_tests_cant": "the bound is over all ways of rounding, orbits and histories; tests propagate a few states and cannot tell a conversion error that grows with time from the error of the method", "anchors": ["pyorb/orbit.py::Orbit.cartesian", "pyorb/orbit.py::Orbit.calculate_kepler", "pyorb/orbit.py::Orbit.propagate", "pyorb/orbit.py::Orbit.calculate_cartesian", "pyorb/kepler.py::cart_to_kep", "pyorb/kepler.py::true_to_mean", "pyorb/kepler.py::mean_to_true", "pyorb/kepler.py::kep_to_cart"]}
{"id": "C116", "title": "With rounding, Cartesian coordinates on a nearly circular inclined orbit come back from the elements", "statement": "Let a state c move on an orbit that cart_to_kep treats as circular and not as equatorial: e + 250 u <= 9.9e-10 for the unit roundoff u, 1e6 t <= sin i and 200 t + 1e-16 <= sin^2 i for t = u/(1-e). In every arithmetic that rounds to nearest, kep_to_cart of what cart_to_kep returns for c is a state whose position is within a/(1-e) S of that of c and whose velocity within a n/(1-e)^2 S, with S = 13 (T_Omega + T_i) + 2 T + 25 e + 5000 t, where every T is 8 eps/(|sin x| + sqrt eps) for eps = 120 t/sin i (x = Omega), 140 t (x = i) and 600 t/sin i (x = omega + nu, the argument of latitude). So although the argument of periapsis is replaced by zero, the argument of latitude is kept and the state returns up to a multiple of e and the rounding error. In all directions S is at most 3000 sqrt(t/sin i) + 25 e; in double precision at most 25 e + 3e-10 if sin i and the sines of Omega and omega + nu are at least 0.1 in absolute value.", "quantifier": "all ways of rounding to nearest, all states on such orbits", "why_tests_cant": "the special case is chosen by comparing a rounded eccentricity with a threshold; tests try a few circular states, whose angles would be right in many wrong programs too", "anchors": ["pyorb/kepler.py::cart_to_kep", "pyorb/kepler.py::kep_to_cart"]}
{"id": "C117", "title": "With rounding, Cartesian coordinates on an equatorial orbit, of either sense, come back from the elements", "statement": "Let a state c move in the plane z = 0 on an ellipse, in either sense (sin i = 0). In every arithmetic that rounds to nearest, kep_to_cart of what cart_to_kep returns for c is a state whose position is within a/(1-e) S of that of c and whose velocity within a n/(1-e)^2 S. If 3e-9 <= e and 1e6 t <= e for t = u/(1-e), then S = 13 T_varpi + 4 sqrt((1+e)/(1-e)) T_nu + 5000 t, where varpi = omega + cos i Omega and every T is 8 eps/(|sin x| + sqrt eps) with eps = 2000 u/e. If e + 250 u <= 9.9e-10, then S = 2 T + 25 e + 5000 t with eps = 100 u for the true longitude nu + varpi. In double precision S is at most 6e-4 for e between 0.1 and 0.9 at every point, at most 1e-8 there if the sines of varpi and nu are at least 0.1 in absolute value, and at most 2e-6 for e <= 9.8e-10 at every point.", "quantifier": "all ways of rounding to nearest, all states on equatorial ellipses", "why_tests_cant": "the quadrant depends on the sense of the motion, the eccentricity and the inclination being compared with thresholds after rounding; tests try a few equatorial states", "anchors": ["pyorb/kepler.py::cart_to_kep", "pyorb/kepler.py::kep_to_cart"]}
{"id": "C118", "title": "With rounding, an object that was given the Cartesian state of a nearly circular or equatorial orbit follows the Newtonian motion through it", "statement": "Let a Cartesian state c, which lies on an ellipse about the object's mu, be assigned to an object (radians, automatic updates, any anomaly type, solver tolerance tol) whose arithmetic rounds to nearest with u <= 1e-9. After m calls of propagate, with steps of either sign that add up to D and whose absolute values add up to T, reading cartesian gives a position within a/(1-e) B and a velocity within a n/(1-e)^2 B of those at time D on the Newtonian motion through c. B is A + 26/25 tol m (without the m for the mean anomaly) + (6000/(1-e) + 2000 sqrt((1+e)/(1-e)) m + 230/(1-e) n T) u, where A is 13 (T_Omega + T_i) + 2 T + 30 e for nearly circular inclined orbits, 13 T_varpi + 4 sqrt((1+e)/(1-e)) T_nu for equatorial ellipses that are not nearly circular and 2 T + 30 e for nearly circular equatorial ones, with the conditions and the T of C116 and C117. In double precision with default options, for a nearly circular equatorial orbit (e <= 9.8e-10), B is at most 2e-6 + 1.4e-12 m + 3e-14 n T at every point.", "quantifier": "all ways of rounding to nearest, all such states, objects, anomaly types, numbers of calls and sequences of steps", "why_tests_cant": "a test would need exact reference motions and long sequences of calls; in the special cases the stored angles are not those of the orbit, and only the composition shows whether the motion is right", "anchors": ["pyorb/orbit.py::Orbit.cartesian", "pyorb/orbit.py::Orbit.calculate_kepler", "pyorb/orbit.py::Orbit.propagate", "pyorb/orbit.py::Orbit.calculate_cartesian", "pyorb/kepler.py::cart_to_kep", "pyorb/kepler.py::true_to_mean", "pyorb/kepler.py::mean_to_true", "pyorb/kepler.py::kep_to_cart"]}
{"id": "C119", "title": "With rounding and degrees=True, kep_to_cart of what cart_to_kep computed is close to the state it started from", "statement": "In every arithmetic that rounds to nearest, kep_to_cart(cart_to_kep(c, mu, degrees=True), mu, degrees=True) is a state whose position is within a/(1-e) S of that of c and whose velocity within a n/(1-e)^2 S, where S is the bound of C114 (ellipses that are neither nearly circular nor equatorial), C116 (nearly circular inclined orbits) or C117 (equatorial orbits, nearly circular or not, of either sense) under the conditions stated there, with 7000 t in place of 5000 t, t = u/(1-e): the two conversions of the angles add at most 2000 t. In double precision S is at most 5e-7 for e between 0.1 and 0.9 and sines of the angles of at least 0.1 in absolute value.", "quantifier": "all ways of rounding to nearest, all states of the four kinds", "why_tests_cant": "degrees and radians must be used consistently by two functions for four angles in four cases, and the errors of the conversion are magnified by the eccentricity; tests compare a few states with a loose tolerance", "anchors": ["pyorb/kepler.py::cart_to_kep", "pyorb/kepler.py::kep_to_cart"]}
{"id": "C12", "title": "Hyperbolic mean anomaly can be inverted on the whole real line", "statement": "mean_to_eccentric(M,e) yields a finite eccentric anomaly for every M and e>1 (inbound leg M<0 included).", "quantifier": "all M in R, all e>1", "why_tests_cant": "the failing region is a half-line not sampled by the tests", "anchors": ["pyorb/kepler.py::mean_to_eccentric", "pyorb/kepler.py::_get_hyperbolic_kepler_guess"]}
{"id": "C120", "title": "With rounding, an object that uses degrees and was given a Cartesian state follows the Newtonian motion through it", "statement": "Let a Cartesian state c on an ellipse be assigned to an object that uses degrees (automatic updates, any anomaly type, solver tolerance tol) whose arithmetic rounds to nearest with u <= 1e-9. After m calls of propagate, with steps of either sign that add up to D and whose absolute values add up to T, reading cartesian gives a position within a/(1-e) B and a velocity within a n/(1-e)^2 B of those at time D on the Newtonian motion through c. B is A + 26/25 tol m (without the m for the mean anomaly) + (8000/(1-e) + 3000 sqrt((1+e)/(1-e)) m + 230/(1-e) n T) u, where A is the angle part of the bounds of C115 and C118 under the conditions of C114, C116 and C117: ellipses that are neither nearly circular nor equatorial, nearly circular ones, equatorial ones and both. In double precision with default options B is at most 4.7e-7 + 2.6e-12 m + 2.6e-13 n T for e between 0.1 and 0.9 and sines of the angles of at least 0.1 in absolute value.", "quantifier": "all ways of rounding to nearest, all such states, objects, anomaly types, numbers of calls and sequences of steps", "why_tests_cant": "the angles pass through six conversions between degrees and radians on the way; a test would need exact reference motions and long sequences of calls", "anchors": ["pyorb/orbit.py::Orbit.cartesian", "pyorb/orbit.py::Orbit.calculate_kepler", "pyorb/orbit.py::Orbit.propagate", "pyorb/orbit.py::Orbit.calculate_cartesian", "pyorb/kepler.py::cart_to_kep", "pyorb/kepler.py::true_to_mean", "pyorb/kepler.py::mean_to_true", "pyorb/kepler.py::kep_to_cart"]}
{"id": "C121", "title": "With rounding, a Cartesian state on a hyperbola survives the round trip through the elements", "statement": "Let c be a state on a hyperbola (e > 1) on either leg, not equatorial, at the distance r; let W = 1 + r/a and t = u W^2/(e^2-1), with 1e6 t <= sin i and 200 t + 1e-16 <= sin^2 i. In every arithmetic that rounds to nearest, kep_to_cart(cart_to_kep(c, mu), mu) is a state whose position is within r S and whose velocity within (1+e) mu/h S of those of c, where S = 9 (T_Omega + T_i + T_omega) + 3 T_nu + 1e4 t. Each T is the error of an angle whose cosine is computed with error d: the smaller of a bound proportional to d divided by the sine of the angle and one proportional to the square root of d, with d = 100 t/sin i, 100 t, 2000 t/sin i and 2000 u W/e. With degrees=True in both functions 1e4 t becomes 12000 t. S is never more than 6000 sqrt(t/sin i). In double precision S is at most 3e-8 where (1 + r/a)^2 <= 10 (e^2-1) and the sines of the angles are at least 0.1 in absolute value.", "quantifier": "all ways of rounding to nearest, all states on inclined hyperbolas, both legs, radians and degrees", "why_tests_cant": "the errors grow with the distance and as e approaches 1, and depend on how close every angle is to 0 or pi; tests try a few hyperbolas with a loose tolerance", "anchors": ["pyorb/kepler.py::cart_to_kep", "pyorb/kepler.py::kep_to_cart"]}
{"id": "C122", "title": "With rounding, propagating a Cartesian state on a hyperbola stays near the Newtonian motion through it", "statement": "Take an Orbit object in radians with automatic or immediate updates and the default solver options, storing any of the three anomalies. Assign a Cartesian state c on a hyperbola with 1 + 3e-12 <= e <= 6.8 that is not equatorial. Let W = 1 + r/a <= 150 and t = u W^2/(e^2-1), with 1e6 t <= sin i and 200 t + 1e-16 <= sin^2 i, in an arithmetic that rounds to nearest at least as finely as double precision. There is a motion C that obeys Newton's law with C(0) = c, and for every time step d that keeps the body on the outbound leg (mean anomaly above B before and after, and at most 6.8 - e - B after) propagate(d) returns. The position then read is within a (1.02 k (B + 1.01e-12) + 182 P + 30000 t + 230000 u/(e-1)) of that of C(d), and the velocity within a n (1.02 (B + 1.01e-12)/(e-1)^2 + k (9 P + 3700 t + 9100 u/(e-1))), with k = sqrt((e+1)/(e-1)). B = 2.1 e W/sqrt(e^2-1) T_nu + 25000 t W bounds the error of the mean anomaly, and P = T_Omega + T_i + T_omega that of the three plane angles; every T is as in C121. In double precision, where (1 + r/a)^2 <= 10 (e^2-1) and the sines of the four angles are at least 0.1 in absolute value, B is at most 4e-9 and the errors are at most 4e-7 a and 2e-6 a n.", "quantifier": "all ways of rounding to nearest at least as fine as double precision, all such states, objects, anomaly types and time steps", "why_tests_cant": "the time step ranges over a continuum, and the error combines the loss in the elements, in the mean anomaly, in the iteration and in the way back; tests compare a few hyperbolas with themselves", "anchors": ["pyorb/orbit.py::Orbit.cartesian", "pyorb/orbit.py::Orbit.calculate_kepler", "pyorb/orbit.py::Orbit.propagate", "pyorb/orbit.py::Orbit.calculate_cartesian", "pyorb/kepler.py::cart_to_kep", "pyorb/kepler.py::true_to_mean", "pyorb/kepler.py::mean_to_true", "pyorb/kepler.py::kep_to_cart"]}
{"id": "C123", "title": "With rounding, propagating a Cartesian state on a hyperbola also stays near the Newtonian motion when the object uses degrees", "statement": "As C122, for an Orbit object with degrees=True: the elements calculated from the assigned state, the advance of the mean anomaly and the way back all convert angles between degrees and radians, with rounding. With the same hypotheses on the state and B = 2.1 e W/sqrt(e^2-1) T_nu + 26000 t W, there is a motion C that obeys Newton's law with C(0) = c. For every time step d that keeps the body on the outbound leg (mean anomaly, in radians, above B before and after, and at most 6.8 - e - B after) propagate(d) returns. The position then read is within a (1.02 k (B + 1.27e-12) + 182 P + 52000 t + 230000 u/(e-1)) of that of C(d), and the velocity within a n (1.02 (B + 1.27e-12)/(e-1)^2 + k (9 P + 5000 t + 9100 u/(e-1))). In double precision, where (1 + r/a)^2 <= 10 (e^2-1) and the sines of the four angles are at least 0.1 in absolute value, the errors are at most 4e-7 a and 2e-6 a n, as in radians.", "quantifier": "all ways of rounding to nearest at least as fine as double precision, all such states, objects, anomaly types and time steps", "why_tests_cant": "a conversion left out at any of the five places is a factor of 57 that cancels in round trips; the time step and the state range over a continuum", "anchors": ["pyorb/orbit.py::Orbit.cartesian", "pyorb/orbit.py::Orbit.calculate_kepler", "pyorb/orbit.py::Orbit.propagate", "pyorb/orbit.py::Orbit.calculate_cartesian", "pyorb/kepler.py::cart_to_kep", "pyorb/kepler.py::true_to_mean", "pyorb/kepler.py::mean_to_true", "pyorb/kepler.py::kep_to_cart"]}
{"id": "C124", "title": "With rounding, any number of steps from a Cartesian state on a hyperbola stays near the Newtonian motion", "statement": "As C122, for an Orbit object that stores the mean anomaly, and for any number m of calls of propagate. The time steps add up to d and their absolute values to tau. After each call the mean anomaly of the true motion, advanced by the sum of the steps so far, must lie between 0 and 6.8 - e, with a margin of B + (94 m + 19 n tau) u on both sides for the calls so far. There is a motion C, the same for all sequences of steps, that obeys Newton's law with C(0) = c. The position read after the last call is within a (1.02 k (B + (53 m + 19 n tau) u + 1.01e-12) + 182 P + 30000 t + 230000 u/(e-1)) of that of C(d), and the velocity within a n (1.02 (B + (53 m + 19 n tau) u + 1.01e-12)/(e-1)^2 + k (9 P + 3700 t + 9100 u/(e-1))), with B, P, t, k and n as in C122. So each call adds one rounding error of the mean anomaly, and neither the errors of the elements nor those of the solver add up. In double precision, under the conditions of C122, the errors are at most a (4e-7 + (4 m + 2 n tau) 1e-14) and a n (2e-6 + (3 m + n tau) 1e-12).", "quantifier": "all ways of rounding to nearest at least as fine as double precision, all such states, objects and finite sequences of time steps, forwards or backwards", "why_tests_cant": "the number of calls is unbounded and the steps range over a continuum; a test that steps a few times cannot tell an error that grows per call from a constant one", "anchors": ["pyorb/orbit.py::Orbit.cartesian", "pyorb/orbit.py::Orbit.calculate_kepler", "pyorb/orbit.py::Orbit.propagate", "pyorb/orbit.py::Orbit.calculate_cartesian", "pyorb/kepler.py::cart_to_kep", "pyorb/kepler.py::true_to_mean", "pyorb/kepler.py::mean_to_true", "pyorb/kepler.py::kep_to_cart"]}
{"id": "C125", "title": "With rounding, any number of steps from a Cartesian state on a hyperbola stays near the Newtonian motion also when the object uses degrees", "statement": "As C124, for an Orbit object with degrees=True that stores the mean anomaly: each call converts the mean motion and the anomaly between degrees and radians, with rounding. With B = 2.1 e W/sqrt(e^2-1) T_nu + 26000 t W as in C123, and with the time steps restricted as in C124 (mean anomaly in radians), there is one motion C that obeys Newton's law with C(0) = c. After any number m of calls of propagate, with steps that add up to d and whose absolute values add up to tau, the position read is within a (1.02 k (B + (20 m + 19 n tau) u + 1.27e-12) + 182 P + 52000 t + 230000 u/(e-1)) of that of C(d), and the velocity within a n (1.02 (B + (20 m + 19 n tau) u + 1.27e-12)/(e-1)^2 + k (9 P + 5000 t + 9100 u/(e-1))). In double precision, under the conditions of C122, the errors are at most a (4e-7 + (4 m + 2 n tau) 1e-14) and a n (2e-6 + (3 m + n tau) 1e-12).", "quantifier": "all ways of rounding to nearest at least as fine as double precision, all such states, objects and finite sequences of time steps, forwards or backwards", "why_tests_cant": "the number of calls is unbounded and the steps range over a continuum; an error in a conversion that is made once per call grows with the number of calls", "anchors": ["pyorb/orbit.py::Orbit.cartesian", "pyorb/orbit.py::Orbit.calculate_kepler", "pyorb/orbit.py::Orbit.propagate", "pyorb/orbit.py::Orbit.calculate_cartesian", "pyorb/kepler.py::cart_to_kep", "pyorb/kepler.py::true_to_mean", "pyorb/kepler.py::mean_to_true", "pyorb/kepler.py::kep_to_cart"]}
{"id": "C126", "title": "With rounding, how a time is divided into steps hardly changes the propagated state, and steps that add up to zero come back", "statement": "Take an Orbit object in radians with automatic or immediate updates and the default solver options, and two sequences of calls of propagate on it whose steps have the same sum. Let m1, m2 be the numbers of calls and T1, T2 the sums of the absolute values of the steps. (a) If the object holds the elements of an ellipse with e <= 0.7 and stores nu, in any arithmetic with unit roundoff u <= 2^-50, the two positions read in the end differ by at most a/(1-e) (1.01e-12 q + (2300 (m1+m2) + 40 |nu| + 18 n (T1+T2)) u), where q is 2 if the mean anomaly is stored and m1+m2 otherwise; the velocities by at most the same times n/(1-e). (b) If a Cartesian state on an ellipse with 0.1 <= e <= 0.9, not near the special planes and axes (as in C115), was assigned, in double precision the positions differ by at most a/(1-e) (9.4e-7 + 2.1e-12 (m1+m2) + 2.6e-13 n (T1+T2)), the velocities by the same times n/(1-e); and a sequence of m calls whose steps add up to zero ends within half the constant, a/(1-e) (4.7e-7 + 2.1e-12 m + 2.6e-13 n T), of the assigned position, and likewise for the velocity. (c) If a Cartesian state on a hyperbola was assigned to an object that stores the mean anomaly, under the conditions of C124 in double precision, the positions differ by at most a (8e-7 + (4 (m1+m2) + 2 n (T1+T2)) 1e-14) and the velocities by a n (4e-6 + (3 (m1+m2) + n (T1+T2)) 1e-12); steps that add up to zero end within a (4e-7 + (4 m + 2 n T) 1e-14) of the assigned position and a n (2e-6 + (3 m + n T) 1e-12) of the assigned velocity.", "quantifier": "all such objects and states, all pairs of finite sequences of time steps with equal sums; in (a) all ways of rounding", "why_tests_cant": "the sequences are of any length and over a continuum; a test compares a few fixed divisions of one time, with tolerances that are guessed", "anchors": ["pyorb/orbit.py::Orbit.propagate", "pyorb/orbit.py::Orbit.cartesian", "pyorb/orbit.py::Orbit.calculate_kepler", "pyorb/orbit.py::Orbit.calculate_cartesian"]}
{"id": "C127", "title": "With rounding, energy and angular momentum of the state hardly change over any number of propagation steps", "statement": "Assign a Cartesian state c to an Orbit object in radians with automatic or immediate updates, and call propagate m times, with time steps whose absolute values add up to T. Let c' be the state read afterwards. (a) If c lies on an ellipse as in C115, in any arithmetic that rounds to nearest, let X be the relative error bound of C115, and X <= (1-e)^2/100. Then the specific energies of c' and c differ by at most mu/a * 2.03 X/(1-e)^3, and the angular momentum vectors by at most a^2 n * 4.02 X/(1-e)^3. In double precision with the default options, under the conditions of C115, X = 4.7e-7 + 2.1e-12 m + 2.6e-13 n T. (b) If c lies on a hyperbola as in C124, in double precision, and the object stores the mean anomaly, let p and q be the bounds of C124 for position and velocity, with p <= (e-1)/100 and q <= 0.01. Then the energies differ by at most mu/a (1.01 sqrt((e+1)/(e-1)) q + 1.02 p/(e-1)^2). Energy and angular momentum are computed exactly from the components of the two states.", "quantifier": "all such states, objects and finite sequences of time steps; in (a) all ways of rounding to nearest", "why_tests_cant": "the conserved quantities are what propagation must keep, for any number of steps; a test samples a few steps and cannot bound the drift", "anchors": ["pyorb/orbit.py::Orbit.propagate", "pyorb/orbit.py::Orbit.cartesian", "pyorb/orbit.py::Orbit.calculate_kepler", "pyorb/orbit.py::Orbit.calculate_cartesian"]}
{"id": "C13", "title": "Anomalies agree at the apsides and preserve order", "statement": "For 0<=e<1 the three anomalies coincide at 0 and (in the limit sense) pi, lie in the same half-turn, and each conversion is strictly increasing on a revolution.", "quantifier": "all e in [0,1), all anomalies", "why_tests_cant": "monotonicity over a continuum", "anchors": ["pyorb/kepler.py::true_to_eccentric", "pyorb/kepler.py::eccentric_to_mean", "pyorb/kepler.py::true_to_mean"]}
{"id": "C14", "title": "All radius formulas agree", "statement": "orbital_distance(h,mu,e,nu) with the orbit's own angular momentum equals elliptic_radius(E,a,e) at the matching eccentric anomaly, parabolic_radius(nu,q), and hyperbolic_radius(nu,a,e).", "quantifier": "all orbits of each kind, all anomalies", "why_tests_cant": "identity over a continuum", "anchors": ["pyorb/kepler.py::orbital_distance", "pyorb/kepler.py::elliptic_radius", "pyorb/kepler.py::parabolic_radius", "pyorb/kepler.py::hyperbolic_radius", "pyorb/kepler.py::orbit_total_angular_momentum", "pyorb/kepler.py::parabolic_total_angular_momentum"]}
{"id": "C15", "title": "orbital_speed is the speed of the state produced by kep_to_cart", "statement": "|v| of kep_to_cart(kep) equals orbital_speed(|r|, a, mu) (a negative for hyperbolas), for every point of every non-parabolic orbit.", "quantifier": "all elements, all mu>0", "why_tests_cant": "identity over a continuum", "anchors": ["pyorb/kepler.py::orbital_speed", "pyorb/kepler.py::kep_to_cart"]}
{"id": "C16", "title": "orbital_period and semi_major_axis are inverse and obey Kepler's third law", "statement": "semi_major_axis(orbital_period(a,mu),mu)=a and conversely, and P^2 mu = 4 pi^2 a^3.", "quantifier": "all a>0, P>0, mu>0", "why_tests_cant": "identity over a continuum", "anchors": ["pyorb/kepler.py::orbital_period", "pyorb/kepler.py::semi_major_axis"]}
{"id": "C17", "title": "Rotation matrices are proper rotations and euler_rotation_matrix is Rz(Omega) Rx(i) Rz(omega)", "statement": "rot_mat_x/y/z are orthogonal with determinant 1, add under composition, and euler_rotation_matrix equals the documented Z-X-Z product.", "quantifier": "all angles", "why_tests_cant": "identity over a continuum", "anchors": ["pyorb/kepler.py::rot_mat_x", "pyorb/kepler.py::rot_mat_y", "pyorb/kepler.py::rot_mat_z", "pyorb/kepler.py::euler_rotation_matrix"]}
{"id": "C18", "title": "stumpff functions are the documented power series", "statement": "stumpff0..3 equal sum_j (-1)^j x^j/(n+2j)! for every real x (positive, zero, negative).", "quantifier": "all real x, n=0..3", "why_tests_cant": "infinite series identity, sign cases", "anchors": ["pyorb/kepler.py::stumpff0", "pyorb/kepler.py::stumpff1", "pyorb/kepler.py::stumpff2", "pyorb/kepler.py::stumpff3", "pyorb/kepler.py::stumpff"]}
{"id": "C19", "title": "Keplerian and equinoctial elements convert back and forth without loss", "statement": "equi_to_kep(kep_to_equi(kep)) = kep for e>e_lim, 0<i<pi and angles in [0,2pi); kep_to_equi(equi_to_kep(equi)) = equi for e>e_lim or e=0; within the e_lim band the h,k error is at most 2 e_lim.", "quantifier": "all elements in the domain", "why_tests_cant": "continuum with atan2 branches", "anchors": ["pyorb/kepler.py::kep_to_equi", "pyorb/kepler.py::equi_to_kep"]}
{"id": "C20", "title": "Cartesian and equinoctial elements convert back and forth", "statement": "equi_to_cart(cart_to_equi(x)) = x for every elliptic state with e>e_lim and 0<i<pi outside the i_lim band, when Kepler's equation is solved exactly.", "quantifier": "all elliptic states, all mu>0", "why_tests_cant": "continuum", "anchors": ["pyorb/kepler.py::cart_to_equi", "pyorb/kepler.py::equi_to_cart"]}
{"id": "C21", "title": "degrees=True is exactly the radian function with converted angles", "statement": "For every function with a degrees flag, f(x, degrees=True) = deg(f(rad(x))) on the angular slots and identical on the others.", "quantifier": "all inputs, every function with the flag", "why_tests_cant": "continuum x every function", "anchors": ["pyorb/kepler.py::true_to_eccentric", "pyorb/kepler.py::eccentric_to_true", "pyorb/kepler.py::eccentric_to_mean", "pyorb/kepler.py::true_to_mean", "pyorb/kepler.py::mean_to_eccentric", "pyorb/kepler.py::mean_to_true", "pyorb/kepler.py::cart_to_kep", "pyorb/kepler.py::kep_to_cart", "pyorb/kepler.py::kep_to_equi", "pyorb/kepler.py::equi_to_kep"]}
{"id": "C22", "title": "get_G converts the gravitational constant consistently", "statement": "get_G(length, mass, time) = G_SI mass time^2/length^3 where a unit name stands for its SI value, unit names are case-insensitive (and '_', ' ', '-' are ignored in mass), and anything else raises TypeError. A zero length given as a python float raises ZeroDivisionError.", "quantifier": "all unit names, all float unit sizes, all other arguments", "why_tests_cant": "all strings and numbers", "anchors": ["pyorb/unit.py::get_G"]}
{"id": "C23", "title": "angle_units wraps a function exactly by degree conversion", "statement": "With degrees=True the wrapped function receives the selected positional and keyword arguments in radians, everything else unchanged, and the selected outputs come back in degrees; with degrees=False the call is passed through unchanged.", "quantifier": "all functions, argument lists, keyword sets and index selections", "why_tests_cant": "higher-order: all wrapped functions", "anchors": ["pyorb/unit.py::angle_units"]}
{"id": "C24", "title": "Constants cannot be rebound or deleted", "statement": "After any sequence of attribute assignments, deletions and reads on pyorb.const, every constant still has its first value; a rebinding to a different value or deletion raises ConstError and changes nothing.", "quantifier": "all operation sequences", "why_tests_cant": "all histories", "anchors": ["pyorb/const.py::_const.__setattr__", "pyorb/const.py::_const.__delattr__"]}
{"id": "C25", "title": "All instances of the constants class share one state (Borg)", "statement": "A constant bound through one instance of the constants class is visible through every other instance.", "quantifier": "all instances and bindings", "why_tests_cant": "depends on attribute-lookup semantics, not on sampled values", "anchors": ["pyorb/const.py::_const.__init__", "pyorb/const.py::_const.__setattr__", "pyorb/_const_docs.py"]}
{"id": "C26", "title": "kep_equivalent only accepts element sets of the same orbit and is an equivalence", "statement": "kep_equivalent(k1,k2) is reflexive on finite elements, symmetric, and True only for element sets describing (up to tolerance) the same orbit.", "quantifier": "all pairs of element vectors", "why_tests_cant": "all pairs", "anchors": ["pyorb/kepler.py::kep_equivalent"]}
{"id": "C27", "title": "Propagation follows the two-body equation of motion", "statement": "The curve t -> kep_to_cart(a,e,i,omega,Omega,nu(t)) where nu(t) is the true anomaly for mean anomaly M0 + mean_motion t satisfies r' = v and v' = -mu r/|r|^3.", "quantifier": "all elliptic orbits, all times, all mu>0", "why_tests_cant": "differential equation for all times", "anchors": ["pyorb/orbit.py::Orbit.propagate", "pyorb/orbit.py::Orbit.mean_motion", "pyorb/kepler.py::eccentric_to_true", "pyorb/kepler.py::kep_to_cart"]}
{"id": "C28", "title": "propagate composes and is periodic", "statement": "propagate(dt1); propagate(dt2) leaves the same mean anomaly as propagate(dt1+dt2); propagate(k*period) restores it; only the anomaly and Cartesian state change.", "quantifier": "all dt (either sign), all orbits, all anomaly types and modes", "why_tests_cant": "all histories and times", "anchors": ["pyorb/orbit.py::Orbit.propagate", "pyorb/orbit.py::Orbit.mean_anomaly", "pyorb/orbit.py::Orbit.mean_motion"]}
{"id": "C29", "title": "With direct_update the Kepler and Cartesian elements of an Orbit always agree", "statement": "After any sequence of element assignments, update, add, delete, propagate and recalculation with direct_update=True, for every orbit without NaN the Cartesian state is the conversion of its Kepler elements or vice versa.", "quantifier": "all operation sequences, all values, all numbers of orbits, any numerical kernel", "why_tests_cant": "all histories", "anchors": ["pyorb/orbit.py::Orbit.update", "pyorb/orbit.py::Orbit.calculate_cartesian", "pyorb/orbit.py::Orbit.calculate_kepler", "pyorb/orbit.py::Orbit.kepler", "pyorb/orbit.py::Orbit.cartesian"]}
{"id": "C30", "title": "Changing the anomaly type does not move the object", "statement": "Assigning orb.type leaves orb.cartesian unchanged and only re-expresses the anomaly.", "quantifier": "all states, all type changes, direct and lazy modes", "why_tests_cant": "all states", "anchors": ["pyorb/orbit.py::Orbit.type"]}
{"id": "C31", "title": "With lazy updating the two element sets read from an Orbit never contradict", "statement": "With direct_update=False, auto_update=True, what orb.cartesian and orb.kepler return after any history of assignments agree with each other.", "quantifier": "all operation sequences", "why_tests_cant": "all histories of interleaved writes and reads", "anchors": ["pyorb/orbit.py::Orbit._cart_check", "pyorb/orbit.py::Orbit._kep_check", "pyorb/orbit.py::Orbit.calculate_cartesian", "pyorb/orbit.py::Orbit.calculate_kepler"]}
{"id": "C32", "title": "Reading back an assigned element returns the assigned value", "statement": "After orb.<elem> = v the next read of orb.<elem> returns v (direct and lazy modes).", "quantifier": "all states and prior histories, all elements, all values", "why_tests_cant": "all histories", "anchors": ["pyorb/orbit.py::Orbit.x", "pyorb/orbit.py::Orbit.a", "pyorb/orbit.py::Orbit.kepler", "pyorb/orbit.py::Orbit.cartesian"]}
{"id": "C33", "title": "Read-only flags protect the stored elements", "statement": "With kepler_read_only (cartesian_read_only) set, every Kepler (Cartesian) assignment raises AttributeError and leaves all stored elements unchanged.", "quantifier": "all assignment entry points, all states and values", "why_tests_cant": "every entry point x every state", "anchors": ["pyorb/orbit.py::Orbit.update", "pyorb/orbit.py::Orbit.equinoctial", "pyorb/orbit.py::Orbit.kepler", "pyorb/orbit.py::Orbit.velocity", "pyorb/orbit.py::Orbit.add"]}
{"id": "C34", "title": "All per-orbit arrays keep the same length", "statement": "After any sequence of public operations masses, elements, cached anomalies and bookkeeping flags all have one entry per orbit, and orb.num is that number.", "quantifier": "all operation sequences", "why_tests_cant": "all histories", "anchors": ["pyorb/orbit.py::Orbit.allocate", "pyorb/orbit.py::Orbit.add", "pyorb/orbit.py::Orbit.delete", "pyorb/orbit.py::Orbit.calc_eccentric_anomaly"]}
{"id": "C35", "title": "copy() and indexing return faithful independent copies", "statement": "orb.copy() answers every query as orb does, orb[inds] as the selected orbits do.", "quantifier": "all states, all index selections, direct and lazy modes", "why_tests_cant": "all states", "anchors": ["pyorb/orbit.py::Orbit.__getitem__", "pyorb/orbit.py::Orbit.copy", "pyorb/orbit.py::Orbit.__copy__"]}
{"id": "C36", "title": "Iteration visits every orbit once, in order", "statement": "for o in orb yields orb[0], ..., orb[num-1] and then stops; nested loops visit all pairs.", "quantifier": "all numbers of orbits, all interleavings of iterations over the same instance", "why_tests_cant": "all interleavings", "anchors": ["pyorb/orbit.py::Orbit.__iter__", "pyorb/orbit.py::Orbit.__next__"]}
{"id": "C37", "title": "add, delete and allocate act like list append, filter and replace", "statement": "add(num,...) appends num orbits leaving the old ones unchanged, delete(inds) removes exactly those, allocate(n) yields n empty orbits.", "quantifier": "all states, counts, index selections", "why_tests_cant": "all states and selections", "anchors": ["pyorb/orbit.py::Orbit.add", "pyorb/orbit.py::Orbit.delete", "pyorb/orbit.py::Orbit.allocate"]}
{"id": "C38", "title": "update changes exactly the selected elements of the selected orbits, or nothing at all", "statement": "A successful update writes exactly the named elements at inds; an update that raises changes nothing; unknown names are rejected; kepler=/cartesian= act like the property assignment.", "quantifier": "all keyword sets, index selections, values, modes", "why_tests_cant": "all keyword sets x states", "anchors": ["pyorb/orbit.py::Orbit.update", "pyorb/orbit.py::Orbit.UPDATE_KW"]}
{"id": "C39", "title": "Assigning period or mean_motion sets it", "statement": "After orb.period = P, orb.period reads P; likewise mean_motion.", "quantifier": "all states, all P", "why_tests_cant": "universally failing or holding", "anchors": ["pyorb/orbit.py::Orbit.period", "pyorb/orbit.py::Orbit.mean_motion"]}
{"id": "C40", "title": "Reading never changes the stored elements in direct mode", "statement": "With direct_update=True every property read leaves the masses, Kepler and Cartesian elements unchanged.", "quantifier": "all getters, all states", "why_tests_cant": "all states", "anchors": ["pyorb/orbit.py::Orbit.kepler", "pyorb/orbit.py::Orbit.mean_anomaly", "pyorb/orbit.py::Orbit.equinoctial", "pyorb/orbit.py::Orbit.speed"]}
{"id": "C41", "title": "speed (from elements) equals velocity (from state)", "statement": "For every consistent elliptic orbit Orbit.speed = Orbit.velocity; where speed must solve Kepler's equation for a mean anomaly that was calculated from a state, up to the effect of the solver tolerance.", "quantifier": "all orbits", "why_tests_cant": "continuum", "anchors": ["pyorb/orbit.py::Orbit.speed", "pyorb/orbit.py::Orbit.velocity"]}
{"id": "C42", "title": "apoapsis and periapsis bound the distance and are attained", "statement": "For every orbit periapsis <= |r| (<= apoapsis on ellipses) with equality at anomaly 0 and pi.", "quantifier": "all orbits, all anomalies, ellipse and hyperbola", "why_tests_cant": "continuum", "anchors": ["pyorb/orbit.py::Orbit.apoapsis", "pyorb/orbit.py::Orbit.periapsis"]}
{"id": "C43", "title": "Integer arrays give the same result as float arrays", "statement": "Passing the same numbers as an integer array or as a float array to the conversion functions gives the same result.", "quantifier": "all integer-valued inputs", "why_tests_cant": "all inputs", "anchors": ["pyorb/kepler.py::true_to_eccentric", "pyorb/kepler.py::cart_to_kep", "pyorb/kepler.py::kep_to_cart"]}
{"id": "C44", "title": "Array element p of mean_to_eccentric is the solution for M[p], e[p]", "statement": "For arrays of any shape and memory layout the element at each index is the scalar result for that index.", "quantifier": "all shapes, layouts, values", "why_tests_cant": "all layouts", "anchors": ["pyorb/kepler.py::mean_to_eccentric", "pyorb/kepler.py::kepler_guess"]}
{"id": "C45", "title": "true_of_the_asymptote bounds the reachable true anomaly", "statement": "For e>1, 1+e cos nu > 0 exactly for |nu| below true_of_the_asymptote(e), and eccentric_to_true stays within it.", "quantifier": "all e>1, all hyperbolic anomalies", "why_tests_cant": "continuum", "anchors": ["pyorb/kepler.py::true_of_the_asymptote", "pyorb/kepler.py::eccentric_to_true"]}
{"id": "C46", "title": "Lazy access cannot recurse for ever", "statement": "Every property access in lazy mode triggers at most two nested recalculations.", "quantifier": "all states and anomaly types", "why_tests_cant": "termination for all states", "anchors": ["pyorb/orbit.py::Orbit.calculate_kepler", "pyorb/orbit.py::Orbit.calculate_cartesian", "pyorb/orbit.py::Orbit._kep_check"]}
{"id": "C47", "title": "Setting velocity rescales v and nothing else", "statement": "orb.velocity = s leaves the position unchanged and yields a velocity of magnitude |s| parallel to the old one.", "quantifier": "all states with non-zero velocity, all s", "why_tests_cant": "continuum", "anchors": ["pyorb/orbit.py::Orbit.velocity"]}
{"id": "C48", "title": "The equinoctial property round-trips", "statement": "orb.equinoctial = q followed by orb.equinoctial reads q (e>e_lim or e=0, exact Kepler solver), in direct mode.", "quantifier": "all q in the domain", "why_tests_cant": "continuum", "anchors": ["pyorb/orbit.py::Orbit.equinoctial"]}
{"id": "C49", "title": "The starting guess is admissible", "statement": "kepler_guess is finite for every M and 0<=e<1 (and M>=0, e>1), is symmetric under M -> 2pi-M, and for M in [0,2pi] lies within 8e of M, ahead of it on the first half-turn and behind it on the second.", "quantifier": "all M, e", "why_tests_cant": "continuum", "anchors": ["pyorb/kepler.py::kepler_guess", "pyorb/kepler.py::_get_kepler_guess"]}
{"id": "C50", "title": "Parabolic orbits survive the Kepler -> Cartesian -> Kepler round trip", "statement": "For every canonical parabolic element set (e=1, a = periapsis distance as the README documents), cart_to_kep(kep_to_cart(kep, mu), mu) returns kep.", "quantifier": "all periapsis distances, orientations and anomalies with 1+cos nu > 0, all mu>0", "why_tests_cant": "an exact parabola is a measure-zero case that sampled tests miss", "anchors": ["pyorb/kepler.py::kep_to_cart", "pyorb/kepler.py::cart_to_kep", "README.md"]}
{"id": "C51", "title": "Each instance of the constants class has its own state", "statement": "Whatever attribute operations are performed on, or by creating, other instances of the constants class, an instance keeps exactly its own bindings, and what it has bound it keeps forever.", "quantifier": "all instances, all operation histories", "why_tests_cant": "all histories", "anchors": ["pyorb/const.py::_const.__init__", "pyorb/const.py::_const.__setattr__", "pyorb/const.py::_const.__delattr__"]}
{"id": "C52", "title": "angle_units converts every selected slot as often as it is named", "statement": "With degrees true the wrapped function is called once, with positional argument j converted to radians once per entry of in_arg_inds that denotes position j (negative indices count from the end), keyword values once per occurrence in in_arg_keys, the degrees keyword removed; its outputs are converted to degrees likewise and its exceptions pass through. A selected position that was not passed positionally raises IndexError without calling the function. With degrees false the call is passed through.", "quantifier": "all functions, argument lists, keyword sets and selections", "why_tests_cant": "higher-order: all wrapped functions", "anchors": ["pyorb/unit.py::angle_units"]}
{"id": "C53", "title": "kep_equivalent decides exactly its documented closeness relation", "statement": "kep_equivalent(k1,k2) is True iff all six elements are close in numpy's sense, or a is close, omega and nu (only their sum if both eccentricities are below e_lim) are close, and i and Omega are close unless both inclinations are at most i_lim.", "quantifier": "all pairs of finite element vectors", "why_tests_cant": "all pairs", "anchors": ["pyorb/kepler.py::kep_equivalent"]}
{"id": "C54", "title": "Shape contract of the anomaly functions", "statement": "Each of true_to_eccentric, eccentric_to_true, eccentric_to_mean, true_to_mean, mean_to_eccentric, mean_to_true and kepler_guess returns a scalar for two scalars, an array of the shape of the array argument if one argument is an array, an array of the common shape for two arrays of equal shape, and raises TypeError for two arrays of different shapes; the one exception is kepler_guess, which raises ValueError where the result would be an empty array. Arrays have at least one dimension: whether a 0-dimensional array is accepted beside an array of another shape depends on degrees.", "quantifier": "all scalars, arrays of all shapes of at least one dimension (empty ones included), dtypes and memory layouts, degrees on or off", "why_tests_cant": "all shapes", "anchors": ["pyorb/kepler.py::true_to_eccentric", "pyorb/kepler.py::eccentric_to_true", "pyorb/kepler.py::eccentric_to_mean", "pyorb/kepler.py::true_to_mean", "pyorb/kepler.py::mean_to_eccentric", "pyorb/kepler.py::mean_to_true", "pyorb/kepler.py::kepler_guess"]}
{"id": "C55", "title": "A whole element set assigned to an Orbit is read back", "statement": "After orb.kepler = v, orb.cartesian = v, orb.r = v or orb.v = v the next read of the same attribute returns v (a scalar for every entry, one column for every orbit), in direct, lazy and manual mode.", "quantifier": "all objects with one entry per orbit in every array (C34), all modes, all values whose assignment does not raise", "why_tests_cant": "all states and values", "anchors": ["pyorb/orbit.py::Orbit.kepler", "pyorb/orbit.py::Orbit.cartesian", "pyorb/orbit.py::Orbit.r", "pyorb/orbit.py::Orbit.v"]}
{"id": "C56", "title": "In direct and manual mode a single assigned element is read back", "statement": "After orb.a = v (or any other Kepler or Cartesian element, or the anomaly of the kind the object stores) the next read of that element returns v.", "quantifier": "all objects with one entry per orbit in every array, direct_update=True or auto_update=False, all elements and values", "why_tests_cant": "all states and values", "anchors": ["pyorb/orbit.py::Orbit.a", "pyorb/orbit.py::Orbit.x", "pyorb/orbit.py::Orbit.anom", "pyorb/orbit.py::Orbit.true_anomaly"]}
{"id": "C57", "title": "propagate changes the anomaly and the state only", "statement": "After propagate(dt) the masses, G, M0, epoch, anomaly type, units, update modes, read-only flags and solver options are as before, and orb.a, orb.e, orb.i, orb.omega and orb.Omega read as before.", "quantifier": "all objects with one entry per orbit in every array, all modes and types, all time steps that fit and do not raise", "why_tests_cant": "all states and histories", "anchors": ["pyorb/orbit.py::Orbit.propagate", "pyorb/orbit.py::Orbit.mean_anomaly"]}
{"id": "C58", "title": "With anomaly type mean, propagate composes on every orbit", "statement": "For an object of type mean, propagate(dt1); propagate(dt2) leaves the same Kepler elements as propagate(dt1+dt2), ellipse or hyperbola.", "quantifier": "all orbits with positive a and G*(M0+m), all real mean anomalies, all dt of either sign, all modes", "why_tests_cant": "all histories and times", "anchors": ["pyorb/orbit.py::Orbit.propagate", "pyorb/orbit.py::Orbit.mean_anomaly", "pyorb/orbit.py::Orbit.mean_motion"]}
{"id": "C59", "title": "Operations leave settings, anomaly type and masses alone unless they assign them", "statement": "Queries, element assignments, update, propagate, add, delete and the rest never change update mode, read-only flags, degrees, G, M0, solver options or epoch; the anomaly type changes only by assigning type; masses change only by assigning m, update(m=..), add, delete or allocate. This includes calls that raise.", "quantifier": "all objects, all histories of public operations, including ones that raise", "why_tests_cant": "all histories; internal switches of auto_update during an operation must be undone on every exit", "anchors": ["pyorb/orbit.py::Orbit.update", "pyorb/orbit.py::Orbit.propagate", "pyorb/orbit.py::Orbit.add", "pyorb/orbit.py::Orbit.delete", "pyorb/orbit.py::Orbit.type"]}
{"id": "C60", "title": "Element attributes are the rows of the element arrays", "statement": "orb.a, orb.e, orb.i, orb.omega, orb.Omega, orb.anom are, in this order, the rows of orb.kepler, and orb.x .. orb.vz the rows of orb.cartesian; orb.r and orb.v are its halves; each array has one column per orbit.", "quantifier": "all objects, all update modes", "why_tests_cant": "all objects and modes; attributes are generated in a loop over names and refresh the object themselves", "anchors": ["pyorb/orbit.py::Orbit.kepler", "pyorb/orbit.py::Orbit.cartesian", "pyorb/orbit.py::Orbit.a", "pyorb/orbit.py::Orbit.x", "pyorb/orbit.py::Orbit.r", "pyorb/orbit.py::Orbit.v"]}
{"id": "C61", "title": "Derived quantities of an object obey their laws", "statement": "The period obeys P^2 G (M0+m) = 4 pi^2 a^3 and is positive, mean motion times period is one turn in the unit of the object, apoapsis + periapsis = 2a and apoapsis - periapsis = 2ae, mean_longitude = mean_anomaly + omega + Omega, for the elements the object itself answers.", "quantifier": "all objects with one entry per orbit, all modes, orbits with a > 0 and positive G (M0+m)", "why_tests_cant": "continuous elements and all modes", "anchors": ["pyorb/orbit.py::Orbit.period", "pyorb/orbit.py::Orbit.mean_motion", "pyorb/orbit.py::Orbit.apoapsis", "pyorb/orbit.py::Orbit.periapsis", "pyorb/orbit.py::Orbit.mean_longitude"]}
{"id": "C62", "title": "The anomalies an object answers belong to one point", "statement": "Whatever anomaly type and unit an object stores, true and eccentric anomaly are those of one point of the ellipse, and mean and eccentric anomaly obey Kepler's equation, exactly or within the solver tolerance if the mean anomaly is what is stored.", "quantifier": "all objects, all modes, all three anomaly types, both units, all elliptic orbits", "why_tests_cant": "continuous elements x types x units x modes", "anchors": ["pyorb/orbit.py::Orbit.true_anomaly", "pyorb/orbit.py::Orbit.eccentric_anomaly", "pyorb/orbit.py::Orbit.mean_anomaly"]}
{"id": "C63", "title": "The constructor makes the object that was asked for", "statement": "Orbit(M0, **kwargs) has the given settings, read-only flags, anomaly type, epoch and masses (zero by default), reads back the given elements, answers NaN for elements that were not given, and its other element set is the conversion of the given one (NaN where an element is NaN, or if nothing is updated automatically). An unknown anomaly type is refused. A read-only flag given to the constructor is in force afterwards.", "quantifier": "all constructor calls, all modes", "why_tests_cant": "all keyword combinations and values", "anchors": ["pyorb/orbit.py::Orbit.__init__", "pyorb/orbit.py::Orbit.update", "pyorb/orbit.py::Orbit.allocate"]}
{"id": "C64", "title": "Exactly which updates and constructions succeed", "statement": "update(inds, ..) with single names returns exactly when Kepler and Cartesian names are not mixed, the named elements are not read-only, masses are given only without direct update, the selection exists and every value fits it; with kepler= or cartesian= exactly when that set is not read-only and the value fits. The constructor returns exactly when the anomaly type is known and masses and elements fit.", "quantifier": "all objects, index selections, keyword sets and values", "why_tests_cant": "all keyword sets x values x selections", "anchors": ["pyorb/orbit.py::Orbit.update", "pyorb/orbit.py::Orbit.__init__", "pyorb/orbit.py::Orbit.UPDATE_KW"]}
{"id": "C65", "title": "An operation that raises has stored nothing", "statement": "An assignment, deletion, propagation, recalculation or an update of one name or one element set that raises has no effect but that of queries; without lazy updates masses, elements, settings and every later answer are as before. Assigning an element or an element set that raises leaves the object exactly as it was in every mode. (Not claimed for add, equinoctial, and update with several names: C33, C38.)", "quantifier": "all objects, all update modes, all operations and values", "why_tests_cant": "all objects x values x the point in the operation where it raises", "anchors": ["pyorb/orbit.py::Orbit.update", "pyorb/orbit.py::Orbit.propagate", "pyorb/orbit.py::Orbit.delete", "pyorb/orbit.py::Orbit.type", "pyorb/orbit.py::Orbit.velocity", "pyorb/orbit.py::Orbit.mean_anomaly"]}
{"id": "C66", "title": "Propagation conserves the orbit", "statement": "After one or more calls of propagate the state read from cartesian, for an elliptic orbit of an object with automatic updates, has the angular momentum, eccentricity vector and energy of the orbit its Kepler elements described before, whatever anomaly type and unit of angles the object stores and however accurately Kepler's equation is solved.", "quantifier": "all elliptic orbits in objects of any size, direct and lazy mode, all sequences of time steps of either sign", "why_tests_cant": "all ellipses x anomaly types x sequences of time steps x solver results", "anchors": ["pyorb/orbit.py::Orbit.propagate", "pyorb/orbit.py::Orbit.cartesian", "pyorb/orbit.py::Orbit.calculate_cartesian", "pyorb/kepler.py::kep_to_cart"]}
{"id": "C67", "title": "Propagation follows Newton's equations of motion within an explicit bound", "statement": "propagate returns for every real time step, and the state read from cartesian afterwards is on the solution of Newton's equations of motion that starts at the point with the mean anomaly read before, with a position error of at most a tol/(1-e) and a velocity error of at most a n tol/(1-e)^2, for elliptic orbits where the solver does not hit its iteration limit.", "quantifier": "all elliptic orbits in objects of any size, all anomaly types and units, direct and lazy mode, all time steps of either sign", "why_tests_cant": "all ellipses x start points x time steps x tolerances", "anchors": ["pyorb/orbit.py::Orbit.propagate", "pyorb/orbit.py::Orbit.mean_motion", "pyorb/orbit.py::Orbit.mean_anomaly", "pyorb/orbit.py::Orbit.cartesian", "pyorb/kepler.py::mean_to_eccentric", "pyorb/kepler.py::kep_to_cart"]}
{"id": "C68", "title": "Repeated propagation drifts by at most the solver tolerance per call", "statement": "After any number N of calls of propagate on an elliptic orbit, the mean anomaly read differs from the one before plus mean motion times the total time by whole turns and at most N times the solver tolerance (not at all for type mean), so two steps and one step of the total time agree up to three tolerances; and the state read from cartesian stays within a N tol/(1-e) of one solution of Newton's equations at the total time, if the solver never hits its iteration limit.", "quantifier": "all elliptic orbits in objects of any size, all anomaly types and units, all finite sequences of time steps of either sign", "why_tests_cant": "all ellipses x sequences of time steps of any length x tolerances", "anchors": ["pyorb/orbit.py::Orbit.propagate", "pyorb/orbit.py::Orbit.mean_anomaly", "pyorb/orbit.py::Orbit.cartesian", "pyorb/kepler.py::mean_to_eccentric", "pyorb/kepler.py::laguerre_solve_kepler"]}
{"id": "C69", "title": "With rounding, the Kepler solver returns a number that solves the equation", "statement": "In arithmetic with relative rounding errors of at most u <= 1/1000 per operation, mean_to_eccentric returns a finite number (never NaN); unless the iteration limit was reached, this number solves Kepler's equation, evaluated exactly, up to the tolerance plus exp(3u)-1 times the size of its terms, and is within that residual divided by |1-e| of the exact solution. In double precision, on an ellipse: within tol + 1e-14.", "quantifier": "all ways of rounding (unit roundoff u, any rounding function and any errors of the elementary functions within u), all mean anomalies in one turn (ellipse) or non-negative (hyperbola), all eccentricities that differ from 1 by a few rounding errors, all positive tolerances", "why_tests_cant": "all M x e x tolerances x rounding behaviours of the processor and the math library", "anchors": ["pyorb/kepler.py::mean_to_eccentric", "pyorb/kepler.py::laguerre_solve_kepler", "pyorb/kepler.py::kepler_guess", "pyorb/kepler.py::stumpff0"]}
{"id": "C70", "title": "With rounding, kep_to_cart has a small relative error", "statement": "In arithmetic with unit roundoff u, the position that kep_to_cart returns is within 300 c u |r| of the position r of an exact state that has the given elements, and the velocity within 200 c u (1+e) mu/|r x v| of its velocity, where c is the condition number max((1+e)/(1+e cos nu), (1+e^2)/|1-e^2|) and 150 c u <= 1. On ellipses c <= 2/(1-e); in double precision the errors are at most 7e-14/(1-e) and 5e-14/(1-e).", "quantifier": "all ways of rounding, all physical elements (ellipse, parabola, hyperbola), all mu > 0", "why_tests_cant": "all elements x mu x rounding behaviours", "anchors": ["pyorb/kepler.py::kep_to_cart", "pyorb/kepler.py::euler_rotation_matrix"]}
{"id": "C71", "title": "With rounding, the scalar formulas have relative errors of a few units", "statement": "In arithmetic with unit roundoff u: orbital_period has a relative error of at most exp(6u)-1 (1e-15 in double precision), semi_major_axis exp(4u)-1, semi_major_axis of orbital_period returns a up to exp(8u)-1; elliptic_radius has an error of at most exp(4u)-1 times a(1+e); orbital_speed has a relative error of at most exp(4cu)-1 with c the condition number of 2/r-1/a; every entry of euler_rotation_matrix is within 2(exp(6u)-1) of the rotation Rz(Omega) Rx(i) Rz(omega).", "quantifier": "all ways of rounding, all real arguments in the stated ranges", "why_tests_cant": "all arguments x rounding behaviours", "anchors": ["pyorb/kepler.py::orbital_period", "pyorb/kepler.py::semi_major_axis", "pyorb/kepler.py::elliptic_radius", "pyorb/kepler.py::orbital_speed", "pyorb/kepler.py::euler_rotation_matrix"]}
{"id": "C72", "title": "The Kepler solver converges on every ellipse", "statement": "For every eccentricity 0 <= e < 1 and every mean anomaly M in [0, 2 pi], the solver called by mean_to_eccentric with degree 5 meets its tolerance after at most 2K iterations, where 7 (5/6)^K < tol, and never hits a limit above 2K. With the default options it needs at most 326 of the 5000 iterations, |eccentric_to_mean(mean_to_eccentric(M,e),e) - M| < 1e-12, and the error of the eccentric anomaly is at most 1e-12/(1-e).", "quantifier": "all e in [0,1), arbitrarily near to 1, all M in [0,2 pi], all positive tolerances", "why_tests_cant": "convergence of an iteration over a continuum, with no sample near e=1, M=0 being representative", "anchors": ["pyorb/kepler.py::mean_to_eccentric", "pyorb/kepler.py::laguerre_solve_kepler", "pyorb/kepler.py::kepler_guess", "pyorb/kepler.py::_get_kepler_guess"]}
{"id": "C73", "title": "With default options propagation follows Newton's equations on every ellipse", "statement": "An object with the default solver options can be propagated through any sequence of N real time steps, and then has the mean anomaly before plus mean motion times the total time up to whole turns and N 1e-12 (exactly for type mean), and reads a state that is within a N 1e-12/(1-e) in position and a n N 1e-12/(1-e)^2 in velocity of one solution of Newton's equations of motion, with no condition on the convergence of the solver.", "quantifier": "all elliptic orbits in objects of any size, all anomaly types and units, all finite sequences of time steps of either sign", "why_tests_cant": "all ellipses x sequences of time steps of any length", "anchors": ["pyorb/orbit.py::Orbit.propagate", "pyorb/orbit.py::Orbit.__init__", "pyorb/orbit.py::Orbit.mean_anomaly", "pyorb/orbit.py::Orbit.cartesian", "pyorb/kepler.py::mean_to_eccentric"]}
{"id": "C74", "title": "Symmetries of kep_to_cart and cart_to_kep", "statement": "Adding phi to the node turns the state of kep_to_cart about the z axis by phi; whole turns in any angle change nothing; a scaled by s and mu by q scale positions by s and velocities by sqrt(q/s); the elements (pi-i, pi-om, OM+pi, -nu) give the state with reversed velocity and (OM+pi, om+pi) the mirror image in the reference plane. Conversely a and e of cart_to_kep (and nu above e_lim) depend only on the lengths of r and v and on r.v; turning an inclined state about z changes only OM, by phi up to whole turns and within [0, 2 pi); turning an orbit in the reference plane moves om (nu on circles) by phi up to sign and whole turns; scaling lengths by s, mu by q and velocities by sqrt(q/s) scales a by s and changes nothing else; reversing the velocity of an inclined orbit gives pi-i, OM+pi, pi-om, -nu up to whole turns.", "quantifier": "all admissible Kepler elements of every kind of orbit, all states with angular momentum, all turns and scales", "why_tests_cant": "two-run properties over continuous symmetry groups; rotations and scales have no representative sample", "anchors": ["pyorb/kepler.py::kep_to_cart", "pyorb/kepler.py::cart_to_kep"]}
{"id": "C75", "title": "Orbits held in one object do not influence each other", "statement": "In direct or manual mode, take any selection orb[inds] of an object and run the same history of assignments, propagate, update of all orbits, recalculations, changes of settings and queries on both, with every value that has one entry per orbit selected likewise. If no operation raises on the whole object then none raises on the selection, and afterwards every query on the selection answers the selected entries of the answer of the whole object. With one position: orb[j] goes through the history exactly as orbit j of the whole object does.", "quantifier": "all objects of any size, all index expressions, all finite histories of whole-object operations with scalar, 0-d, 1-d and 2-d values, all kernels", "why_tests_cant": "unbounded histories x sizes x selections; a vectorised operation that mixes columns, or that reads a scalar where an array is meant, shows only for particular shapes", "anchors": ["pyorb/orbit.py::Orbit.__getitem__", "pyorb/orbit.py::Orbit.propagate", "pyorb/orbit.py::Orbit.update", "pyorb/orbit.py::Orbit.kepler", "pyorb/orbit.py::Orbit.cartesian", "pyorb/orbit.py::Orbit.mean_anomaly", "pyorb/orbit.py::Orbit.equinoctial", "pyorb/orbit.py::Orbit.velocity", "pyorb/orbit.py::Orbit.type", "pyorb/orbit.py::Orbit.calculate_cartesian", "pyorb/orbit.py::Orbit.calculate_kepler"]}
{"id": "C76", "title": "The Kepler solver converges on the outbound leg of every hyperbola", "statement": "For every eccentricity e > 1 and every mean anomaly M >= 0, the solver called by mean_to_eccentric with degree 5 meets its tolerance after at most K iterations, where 14 (M + e) (7/8)^K < tol, and never hits a limit above K. With the default options and M + e <= 1e200 the limit of 5000 is never reached, |eccentric_to_mean(mean_to_eccentric(M,e),e) - M| < 1e-12, and the error of the eccentric anomaly is at most 1e-12/(e-1).", "quantifier": "all e > 1, arbitrarily near to 1 and arbitrarily large, all M >= 0, all positive tolerances", "why_tests_cant": "convergence of an iteration over an unbounded continuum; near e = 1, M = 0 the function is almost flat and steps overshoot across the origin", "anchors": ["pyorb/kepler.py::mean_to_eccentric", "pyorb/kepler.py::laguerre_solve_kepler", "pyorb/kepler.py::kepler_guess", "pyorb/kepler.py::_get_hyperbolic_kepler_guess"]}
{"id": "C77", "title": "On a hyperbola, mean anomaly, Kepler's equation and kep_to_cart together follow Newton's equations", "statement": "For every hyperbolic orbit there is one curve of states through the object, defined for all times, with r' = v and v' = -mu r/|r|^3, on which the mean anomaly M + sqrt(mu/a^3) t, solved exactly by E, then eccentric_to_true and kep_to_cart stay for all t. The mean anomaly computed by propagate(dt) leads to the point of the curve at dt exactly if the mean anomaly at the end lies in the first turn [0, 2 pi); otherwise the object is put back by whole multiples of 2 pi sqrt(a^3/mu).", "quantifier": "all elements with a > 0 and e > 1, all start anomalies, all times of either sign, radians and degrees, all mu > 0", "why_tests_cant": "a differential equation over all times and orbits; and an exact description of the time steps for which the code is right", "anchors": ["pyorb/kepler.py::eccentric_to_true", "pyorb/kepler.py::eccentric_to_mean", "pyorb/kepler.py::kep_to_cart", "pyorb/orbit.py::Orbit.propagate", "pyorb/orbit.py::Orbit.mean_motion"]}
{"id": "C78", "title": "On a parabola, propagation follows Newton's equations", "statement": "For every parabolic orbit (a is the periapsis distance) there is one curve of states, with r' = v and v' = -mu r/|r|^3, on which propagate stays: the state after propagate(dt) is that of the curve at the time dt.", "quantifier": "all elements with a > 0 and e = 1, all start anomalies, all times, radians and degrees, all mu > 0, all objects and anomaly types", "why_tests_cant": "a differential equation over all times and orbits; a wrong constant in the mean motion looks plausible in samples", "anchors": ["pyorb/kepler.py::eccentric_to_true", "pyorb/kepler.py::eccentric_to_mean", "pyorb/kepler.py::kep_to_cart", "pyorb/orbit.py::Orbit.propagate", "pyorb/orbit.py::Orbit.mean_motion"]}
{"id": "C79", "title": "With default options propagation of a hyperbola is exact up to a tiny error in time", "statement": "For every hyperbolic orbit of an object with default solver options there is one solution c of Newton's equations, at time 0 at the exact point with the mean anomaly the object answers, such that for every dt with the mean anomaly at the end in [0, 2 pi), propagate(dt) returns and the state read afterwards is c(d') with |d' - dt| <= 1e-12 sqrt(a^3/mu); the position is off by at most a sqrt((e+1)/(e-1)) 1e-12 and the velocity by a sqrt(mu/a^3) 1e-12/(e-1)^2.", "quantifier": "all objects with direct or lazy updates, all orbits in them with a > 0 and 1 < e <= 1e199, all anomaly types, radians and degrees, all time steps of the other orbits", "why_tests_cant": "combines convergence of the solver for all inputs with the differential equation and the bookkeeping of the object", "anchors": ["pyorb/orbit.py::Orbit.propagate", "pyorb/orbit.py::Orbit.mean_anomaly", "pyorb/orbit.py::Orbit.cartesian", "pyorb/orbit.py::Orbit.calculate_cartesian", "pyorb/kepler.py::mean_to_eccentric", "pyorb/kepler.py::mean_to_true"]}
{"id": "C80", "title": "The Kepler solver converges on the inbound leg of a hyperbola wherever it has a starting value", "statement": "For every eccentricity e > 1 and every mean anomaly -0.9 e < M <= 0 (where kepler_guess is finite) the solver called by mean_to_eccentric with the default options meets its tolerance before the limit of 5000 iterations, so that |eccentric_to_mean(mean_to_eccentric(M,e),e) - M| < 1e-12.", "quantifier": "all e > 1, all M with -0.9 e < M <= 0, all positive tolerances", "why_tests_cant": "convergence of an iteration over a continuum; it fails only in a narrow strip of (M, e) that samples miss", "anchors": ["pyorb/kepler.py::mean_to_eccentric", "pyorb/kepler.py::laguerre_solve_kepler", "pyorb/kepler.py::kepler_guess", "pyorb/kepler.py::_get_hyperbolic_kepler_guess"]}
{"id": "C81", "title": "True and mean anomaly convert back and forth with the default options", "statement": "On every ellipse mean_to_true(true_to_mean(nu,e),e) is nu up to whole turns within sqrt((1+e)/(1-e)) 1e-12/(1-e) radians, for every real nu, and true_to_mean(mean_to_true(M,e),e) is M up to whole turns within 1e-12 radians, for M within one turn. On a hyperbola or parabola the same holds (within sqrt((e+1)/(e-1)) 1e-12/(e-1) and 1e-12; exactly on a parabola) where the hyperbolic or parabolic anomaly lies in [0, 2 pi), away from the ends by the error of the solver for the second direction; it does not hold for all orbits: the true anomaly 3 pi/2 of a parabola comes back as another point.", "quantifier": "all true anomalies, all mean anomalies within one turn, all e in [0,1), angles in radians or degrees; for e > 1 up to 1e197", "why_tests_cant": "the error bound of a composition through an iterative solver, uniform in e and the anomaly", "anchors": ["pyorb/kepler.py::true_to_mean", "pyorb/kepler.py::mean_to_true", "pyorb/kepler.py::mean_to_eccentric", "pyorb/kepler.py::laguerre_solve_kepler"]}
{"id": "C82", "title": "An anomaly of any kind assigned to an object is read back, default options", "statement": "With the default solver options and elliptic orbits, after orb.true_anomaly = x, orb.eccentric_anomaly = x or orb.mean_anomaly = x the same attribute reads x up to whole turns: exactly if the mean anomaly is neither assigned nor stored or is both, within 1e-12 radians if the mean anomaly is assigned to an object that stores another kind, and within 1e-12/(1-e) (eccentric) or sqrt((1+e)/(1-e)) 1e-12/(1-e) (true) if the object stores the mean anomaly.", "quantifier": "all objects with one entry per orbit, all pairs of anomaly kinds, all modes (in lazy mode an anomaly of the own kind: when the Kepler elements are up to date), scalar or array values within one turn, both angle units", "why_tests_cant": "the stored value goes through an iterative solver on the way in or out", "anchors": ["pyorb/orbit.py::Orbit.true_anomaly", "pyorb/orbit.py::Orbit.eccentric_anomaly", "pyorb/orbit.py::Orbit.mean_anomaly", "pyorb/orbit.py::Orbit.calc_true_anomaly", "pyorb/orbit.py::Orbit.calc_eccentric_anomaly", "pyorb/orbit.py::Orbit.calc_mean_anomaly"]}
{"id": "C83", "title": "Whole periods and forth-and-back propagation return to the same state", "statement": "With the default solver options, two sequences of N and N' time steps applied to an elliptic orbit of the same object, whose total times differ by a whole number of the period read from orb.period, end in states that are on the same orbit, at most a (N+N') 1e-12/(1-e) apart in position and a n (N+N') 1e-12/(1-e)^2 in velocity. If the state and the elements of the object belonged together, then after N steps with a total of a whole number of periods (0 included) the state is within the same bounds, with N+1, of the one before.", "quantifier": "all elliptic orbits in objects of any size, all anomaly types and units, all finite sequences of time steps of either sign", "why_tests_cant": "an infinite family of step sequences", "anchors": ["pyorb/orbit.py::Orbit.propagate", "pyorb/orbit.py::Orbit.period", "pyorb/orbit.py::Orbit.cartesian"]}
{"id": "C84", "title": "The Kepler solver converges for every mean anomaly on ellipses with e <= 0.7", "statement": "With 0 <= e <= 0.7 and the default degree, mean_to_eccentric(M, e) meets its tolerance for every real mean anomaly, including negative ones and ones beyond 2 pi, for which the code does not reduce M to one turn: the iteration stops within 2K steps whenever 7 (5/6)^K is below the tolerance and 2K below max_iter. With the default options the Kepler residual is below 1e-12, the distance to the exact eccentric anomaly at most 1e-12/(1-e), and adding j turns to M adds j turns to the result within 2e-12/(1-e).", "quantifier": "all real M, all e in [0, 0.7], all tolerances > 0", "why_tests_cant": "an unbounded range of mean anomalies; the starting value for M < 0 extrapolates a secant", "anchors": ["pyorb/kepler.py::laguerre_solve_kepler", "pyorb/kepler.py::_get_kepler_guess", "pyorb/kepler.py::mean_to_eccentric"]}
{"id": "C85", "title": "Exactly which elements kep_to_cart turns into a state of the orbit", "statement": "For mu > 0 and e >= 0, kep_to_cart returns six finite numbers exactly when a > 0 and 1 + e cos(nu) is not 0, and the state it returns lies on the orbit described by the elements exactly when a > 0 and 1 + e cos(nu) > 0. Between the two, beyond the asymptote of a hyperbola, it returns without any error or NaN a state at distance p/|1 + e cos(nu)| whose energy is mu/(2a) + 2 mu (1 + e cos(nu))/p instead of mu/(2a). An eccentricity in (-1, 0) is read as the positive one with omega and nu moved by half a turn in opposite directions.", "quantifier": "all real elements with e > -1, all mu > 0, degrees or radians", "why_tests_cant": "the set of bad inputs has measure zero (the asymptote) or is never produced by the test generators (beyond it)", "anchors": ["pyorb/kepler.py::kep_to_cart", "pyorb/kepler.py::orbital_distance", "pyorb/kepler.py::orbit_total_angular_momentum"]}
{"id": "C86", "title": "Exactly which states cart_to_kep turns into finite elements", "statement": "For mu > 0, cart_to_kep returns six finite numbers exactly when neither the angular momentum nor the energy is zero. On radial motion (velocity along the position, or zero) it returns e = 1, inclination NaN, node 0, true anomaly pi, argument of periapsis arccos(-x/|r|) and a = mu/(2 energy), negative for a bound state; at the centre it returns a = 0, node and argument of periapsis 0 and NaN for the rest.", "quantifier": "all real states, all mu > 0, degrees or radians, any content of uninitialised memory", "why_tests_cant": "a measure-zero set of states; NaN comparisons decide the branches", "anchors": ["pyorb/kepler.py::cart_to_kep"]}
{"id": "C87", "title": "Rounding never makes cart_to_kep return NaN", "statement": "In arithmetic that rounds to the nearest number with 53 digits (any rule for ties), for every state whose position is not zero, cart_to_kep returns a number e >= 0 and numbers omega, Omega, nu between 0 and 2.0*np.pi; the inclination is a number exactly when the computed angular momentum is not zero, and a exactly when the computed energy is not zero. In particular the arguments of the two calls of np.arccos that are not clipped, h[2]/hn and n[0]/nn, are never rounded out of [-1, 1], and nn is not zero where the node is computed.", "quantifier": "all states with position not zero, all mu not 0, every rounding to nearest with elementary functions accurate to 2^-50, any content of uninitialised memory", "why_tests_cant": "rounding out of [-1, 1] by one unit happens, if at all, on a thin set of inputs near equatorial orbits", "anchors": ["pyorb/kepler.py::cart_to_kep"]}
{"id": "C88", "title": "With rounding, cart_to_kep computes e, a and i accurately", "statement": "In arithmetic with unit roundoff u: the eccentricity has an error of at most 50 u (1 + 2 r v^2/mu); when e differs from 1 by more than that, a has the right sign and a relative error of at most 24 C u, where C is (v^2/2 + mu/r)/|energy|; the cosine of the inclination has an error of at most 20 u r v/|r x v|. For a bound state in double precision: 3e-14, 1.1e-14 a/r and 2.3e-15 r v/|r x v|.", "quantifier": "all states with angular momentum not zero, all mu > 0, every rounding", "why_tests_cant": "statistical tests cannot bound the worst case, and near e = 1 the sign of a depends on the last digit of e", "anchors": ["pyorb/kepler.py::cart_to_kep"]}
{"id": "C89", "title": "With rounding, kep_to_cart returns numbers exactly when the computed 1 + e cos(nu) is not zero", "statement": "In arithmetic that rounds to the nearest number with 53 digits, for every mu > 0, a > 0 and every e >= 0 with 53 digits, kep_to_cart returns six numbers exactly when the computed denominator 1 + e cos(nu) is not zero; otherwise some component is not a number. For every ellipse (e < 1, however close to 1) whose computed cosine lies in [-1, 1] it returns six numbers, at every true anomaly, in degrees or radians.", "quantifier": "all mu > 0, a > 0, e >= 0 with 53 digits, all angles, every rounding to nearest, degrees or radians", "why_tests_cant": "the dangerous inputs are eccentricities one unit below 1 at the apoapsis", "anchors": ["pyorb/kepler.py::kep_to_cart", "pyorb/kepler.py::elliptic_radius", "pyorb/kepler.py::parabolic_radius", "pyorb/kepler.py::hyperbolic_radius"]}
{"id": "C90", "title": "With rounding, converting an ellipse to Cartesian coordinates and back reproduces a, e and i", "statement": "In arithmetic that rounds to the nearest number with 53 digits and unit roundoff u, for every ellipse with 1e5 u <= (1-e)^3, cart_to_kep after kep_to_cart returns e with an error of at most 8000 u/(1-e)^2, a with a relative error of at most 4000 u/(1-e)^2, and an inclination whose cosine has an error of at most 5000 u/(1-e)^2. In double precision with e <= 0.999: 9e-13, 4.5e-13 and 5.6e-13 divided by (1-e)^2.", "quantifier": "all mu > 0, a > 0, 0 <= e < 1 with 1e5 u <= (1-e)^3, all angles, every rounding to nearest, any content of uninitialised memory", "why_tests_cant": "the tests compare to fixed decimals on a grid; they do not bound the error for all elements", "anchors": ["pyorb/kepler.py::kep_to_cart", "pyorb/kepler.py::cart_to_kep"]}
{"id": "C91", "title": "The scalar formulas broadcast arrays of any shape", "statement": "The radius, distance, speed, period, semi-major axis, angular momentum and asymptote functions accept any mixture of python numbers and arrays: if the shapes fit together the result has the joint shape and each element is the scalar formula applied to the corresponding elements of the arguments; otherwise ValueError is raised. Python numbers equal to zero as r or a of orbital_speed, as e of true_of_the_asymptote, or as mu of orbital_period with a python number a, raise ZeroDivisionError, and nothing else does.", "quantifier": "all arguments of all shapes, in any arithmetic", "why_tests_cant": "shapes are unbounded in number; the intermediate results have smaller shapes than the result, so a wrong order of operations shows only for mixed shapes", "anchors": ["pyorb/kepler.py::orbit_total_angular_momentum", "pyorb/kepler.py::parabolic_total_angular_momentum", "pyorb/kepler.py::orbital_distance", "pyorb/kepler.py::elliptic_radius", "pyorb/kepler.py::parabolic_radius", "pyorb/kepler.py::hyperbolic_radius", "pyorb/kepler.py::orbital_speed", "pyorb/kepler.py::orbital_period", "pyorb/kepler.py::semi_major_axis", "pyorb/kepler.py::true_of_the_asymptote"]}
{"id": "C92", "title": "kep_equivalent on vectors of any length", "statement": "Two vectors of six elements are compared as documented; vectors of equal length with six or more elements never raise; vectors of equal length with fewer are equivalent when all elements are close and otherwise give False or IndexError; different lengths, none of them 1, raise ValueError; a vector with a single element is compared with all elements of the other one; arguments without shape raise AttributeError and arrays with two or more axes ValueError.", "quantifier": "all vectors of all lengths, in any arithmetic", "why_tests_cant": "no test calls the function at all (the source says so)", "anchors": ["pyorb/kepler.py::kep_equivalent"]}
{"id": "C93", "title": "Rounding errors of node, periapsis and anomaly from a state", "statement": "In arithmetic that rounds to nearest, cart_to_kep on a state with e at least 3e-9, not lost in rounding, and not too close to the reference plane returns the ascending node, argument of periapsis and true anomaly as angles whose cosines differ from those between the exact node, eccentricity and position vectors by at most 60u|r||v|/|n|, 400uK|r||v|/(|n|e) and 400uK/e with K = 1 + 2|r||v|^2/mu, and each angle lies in the right half plane unless the exact deciding component (h_x, e_z, r.v) is within its rounding error of zero, and always between 0 and 2 pi + 31 u.", "quantifier": "all such states, mu > 0, all arithmetics rounding to nearest (binary64 as an instance)", "why_tests_cant": "a bound for all inputs; tests compare at chosen orbits with loose tolerances", "anchors": ["pyorb/kepler.py::cart_to_kep"]}
{"id": "C94", "title": "Rounding errors of the round trip in all six elements", "statement": "In arithmetic that rounds to nearest, converting an inclined ellipse (e and sin i not lost in rounding) to a state and back returns six numbers; with t = u/(1-e)^2, e changes by at most 8000t, a by the fraction 4000t, and the cosines of i, node, argument of periapsis and true anomaly by at most 5000t, 11000t/sin i, 60000t/(e sin i), 45000t/e; each angle lies in the half plane of the given one unless its sine is within 2100t/sin i, 7100t/(e sin i), 2100t/e of zero.", "quantifier": "all such ellipses, mu > 0, all arithmetics rounding to nearest (binary64 as an instance)", "why_tests_cant": "a bound for all inputs of two composed floating-point programs; tests cover grids with absolute tolerances", "anchors": ["pyorb/kepler.py::cart_to_kep", "pyorb/kepler.py::kep_to_cart"]}
{"id": "C95", "title": "Names of anomaly types", "statement": "Assigning an ASCII string to Orbit.type succeeds exactly when the string is \"true\", \"eccentric\" or \"mean\" in any mixture of cases with white space around it: the type is then that one, and if it was that one before the object does not change at all. Any other ASCII string raises ValueError and leaves the object as it was. The constructor takes only the three exact names and raises ValueError for every other string.", "quantifier": "all ASCII strings, all objects (for success: writable Kepler elements)", "why_tests_cant": "infinitely many strings", "anchors": ["pyorb/orbit.py::Orbit.type", "pyorb/orbit.py::Orbit.__init__"]}
{"id": "C96", "title": "With rounding, the Kepler solver converges on ellipses up to e = 0.7", "statement": "In arithmetic with relative rounding errors of at most u per operation, for 0 <= e <= 0.7 and a mean anomaly between 0 and 6.3, laguerre_solve_kepler does not reach its iteration limit: for a tolerance of at least 400 u it stops after at most N steps as soon as 0.51^N <= tol/4, and mean_to_eccentric then solves Kepler's equation, evaluated exactly, up to tol + 9 u. With the default options and u <= 2^-50: at most 44 steps, residual below 1.02e-12, error of the eccentric anomaly at most 1.02e-12/(1-e).", "quantifier": "all ways of rounding with unit roundoff u <= 1e-6, all M in [0, 6.3] x e in [0, 0.7] x tolerances >= 400 u x iteration limits > N", "why_tests_cant": "continuum of M, e and tolerances, all rounding behaviours", "anchors": ["pyorb/kepler.py::laguerre_solve_kepler", "pyorb/kepler.py::mean_to_eccentric", "pyorb/kepler.py::kepler_guess"]}
{"id": "C97", "title": "With rounding, the anomaly conversions are accurate up to their condition number", "statement": "In arithmetic with relative rounding errors of at most u per operation, for 0 <= e < 1 and angles in radians, with kappa = sqrt((1+e)/(1-e)): true_to_eccentric and eccentric_to_true return an angle within (85 + 2 kappa |x|) u of the exact one, up to whole turns; eccentric_to_mean is within 4 u (|E| + e); true_to_mean within (200 + 4 kappa |nu|) u, up to whole turns; true -> eccentric -> true returns the angle within (85 + 98 kappa + 2 kappa^2 |nu|) u, up to whole turns. mean_to_true with default options, e <= 0.7 and u <= 2^-50 is within 1.2e-12 kappa/(1-e) of the exact true anomaly.", "quantifier": "all ways of rounding with unit roundoff u <= 1e-6, all e in [0,1) x all real angles", "why_tests_cant": "continuum of angles and eccentricities, all rounding behaviours; the loss near e = 1 has to be exactly the condition number", "anchors": ["pyorb/kepler.py::true_to_eccentric", "pyorb/kepler.py::eccentric_to_true", "pyorb/kepler.py::eccentric_to_mean", "pyorb/kepler.py::true_to_mean", "pyorb/kepler.py::mean_to_true"]}
{"id": "C98", "title": "With rounding, repeated propagate follows the solution of Newton's equations, with errors that grow linearly", "statement": "For an elliptic orbit (0 <= e <= 0.7, radians) of an Orbit object with automatic updates whose arithmetic rounds (u <= 1e-6), and a solver tolerance of at least 400 u, there is one solution c of Newton's equations that starts at the exact point the stored elements describe, such that after any number m of propagate calls, with steps of either sign that add up to D and in absolute value to T, the position read from orb.cartesian is within a/(1-e) (tau + (2300 m + 20 |x0| + 18 n T) u) of c(D), the velocity within a n/(1-e)^2 times the same; x0 is the stored anomaly at the start, n the mean motion, tau the tolerance if the object stores the mean anomaly and m times the tolerance otherwise. The calls return.", "quantifier": "all ways of rounding with u <= 1e-6, all objects x orbits with e <= 0.7 x anomaly types x sequences of time steps of any length and sign", "why_tests_cant": "unbounded sequences of calls, continuum of elements and time steps, all rounding behaviours; the exact solution is not computable by a test", "anchors": ["pyorb/orbit.py::Orbit.propagate", "pyorb/orbit.py::Orbit.cartesian", "pyorb/kepler.py::kep_to_cart", "pyorb/kepler.py::mean_to_true"]}
{"id": "C99", "title": "With rounding, the Stumpff functions lose accuracy near zero, by how much", "statement": "In arithmetic with relative rounding errors of at most u per operation: for x > 0 the error of stumpff0 is at most 2 (1 + sqrt x) u, of stumpff1 5 u, of stumpff2 7 (1 + sqrt x) u/x, of stumpff3 10 u/x; for x < 0 with sqrt(-x) u <= 1/8 the relative errors of stumpff0 and stumpff1 are at most 2 (1 + sqrt(-x)) u and 5 (1 + sqrt(-x)) u, and the errors of stumpff2 and stumpff3 are at most 7 (1 + sqrt(-x)) u c0(x)/|x| and 13 (1 + sqrt(-x)) u c1(x)/|x|; at x = 0 the values are 1, 1, 1/2 and the number nearest to 1/6. The loss is real: in double precision with correctly rounded library functions stumpff2 and stumpff3 return 0 for all 0 < |x| <= 2^-54, where the series are near 1/2 and 1/6.", "quantifier": "all ways of rounding with u <= 1e-6, all real x", "why_tests_cant": "continuum of arguments, all rounding behaviours, comparison with infinite series", "anchors": ["pyorb/kepler.py::stumpff0", "pyorb/kepler.py::stumpff1", "pyorb/kepler.py::stumpff2", "pyorb/kepler.py::stumpff3"]}
