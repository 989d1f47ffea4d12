{
 "C01": "Direct dict.update bypasses the validators (C01_dict_update_bypasses).",
 "C05": "Finding: values overridden in a context are not restored when the body raises.",
 "C06": "Finding: the version check is a substring search.",
 "C08": "Window of exactness is that of 64-bit nanoseconds; outside, wrap-around witness.",
 "C20": "Finding: mmax above the degree supported by the coefficients with nmax=None gives IndexError.",
 "C21": "Finding: out-of-range colatitudes slip through if another point is exactly at a pole.",
 "C13": "Findings: a scalar time (documented) raises TypeError after the parameter line was written; too few coefficients leave a truncated file.",
 "C27": "Finding: above linear order the extrapolation lacks the 1/k! of the Taylor polynomial (C27_above_linear, C27_quadratic_witness); the documented option names are proved up to linear, the actual formula for all.",
 "C28": "Finding: derivatives at the end point depend on whether another time of the same call is outside (C28_witness).",
 "C31": "Finding: order-1 models lose the last interval with extrapolate='off'. make_lsq_spline is modelled by its specification (any least-squares solution).",
 "C51": "The files are lists of characters; the numbers are decimal strings with optional sign, point and exponent (Spec/Numeral), D exponents for CALS7K. Finding: order 1 files with more than one B-spline cannot be loaded (slice 0:-0).",
 "C23": "For deriv >= order the matrix is zero even outside the base interval, where it is NaN otherwise.",
 "C44": "Samples are recovered for odd N; for even N the Nyquist term is counted twice (exact excess proved). Findings: components written unscaled and read back from the file are synthesised wrongly (C44_unscaled_file); a start date shifts the phase (C44_start_date); the documented (k,) frequency form is broken (C44_vector_*). argsort by specification.",
 "C39": "Exact arithmetic; all ellipsoids 0<b<=a; points further than (a^2-b^2)/b (43 km for WGS84) from the centre. gg_to_geo at the poles relies on tan(pi/2) being huge in floating point and is excluded.",
 "C42": "Finding: the lower end of the documented window (1901) is never enforced.",
 "C37": "Finding: the pole check of basevectors_use misses out-of-range colatitudes (C37_use_poles_slip).",
 "C32": "Finding: unknown source names are silently ignored (a misspelt name gives zeros).",
 "C33": "Finding: a model without static part cannot compute its GSM field (AttributeError).",
 "C34": "interp1d by specification. Findings: unknown sources give KeyError/IndexError instead of ValueError when the RC file is used; missing baselines give TypeError.",
 "C55": "All arguments broadcast to lists of points; nmax_static=0 excluded (ValueError).",
 "C50": "Finding: in the last five years the model's secular variation is not exactly the tabulated one (C50_secular_variation_differs), since five calendar years are never 5*365.25 days. Years 1708..2291 as in C10.",
 "C46": "kind='constant' (truncated power series for Bessel functions) is not modelled. Findings: in the default mode rho_a comes out purely imaginary (C46_resistance_imaginary); a scalar period raises TypeError for two or more layers (C46_errors). Exact complex arithmetic.",
 "C57": "leggauss by specification (exact Gauss rule, existence proved in C45_gauss_rule); exact arithmetic; one point in time.",
 "C58": "hdf5storage by specification: arrays come back with the written shape or with at least two axes (both cases proved). Findings: single q11 interval, several calibrated satellites and missing time-dependent part save but do not load; satellites with equally many intervals get arrays of the wrong shape (C58_equal_intervals); non-zonal GSM coefficients and the break points of s11 are lost.",
 "C59": "Outside the interval derivatives are covered by C27/C28.",
 "C60": "make_lsq_spline by specification, numbers of the file exact (text: C13). Findings: an order-one time-dependent part with a single interval comes back as static part; save_shcfile(model='static') without time-dependent part raises AttributeError; an unknown model name silently writes nothing.",
 "C61": "NumPy arrays and broadcasting are modelled (Model/NumPy.lean). Finding: with grid=True a one-dimensional set of coefficients (times) is paired with the longitudes instead of being combined with all grid points (C61_grid_pairs). Empty shapes (a zero length) excluded.",
 "C62": "RC arrays must fit to the shape of the times; extra leading axes of length one count as errors in the model.",
 "C63": "leggauss and the order of np.argsort by specification, np.fft as the exact DFT; base vectors that are NaN stop the model. Finding: the default number of samples 70128 is even, so that at the samples the synthesis adds the Nyquist component once more (C63_sampling).",
 "C64": "Objects and references are modelled for arrays (heap); an element written keeps the type of the array. Finding: DEFAULTS' arrays are shared by reference (C64_alias), a kept reference defeats context (C64_context_alias).",
 "C65": "Points are a list (arrays: C61). The pp evaluation is SciPy PPoly by specification. Finding: the argument order of synth_from_pp is never used (C65_order_ignored).",
 "C66": "Axis handling with arrays of any shape; rows of the result not written stay uninitialised (never happens for the documented sizes, see C47).",
 "C67": "What is drawn is a list of panels (Matplotlib by specification). Findings: the limits of the first map are used for all maps, maps without title are not drawn, plot_power_spectrum writes NaN into the array of the caller, gauss_units(1) has doubled braces.",
 "C68": "Finding: titles show the value of nmax even if it exceeds the degree of the model. Lower and upper case of names by String.toLower/toUpper.",
 "C69": "Exact arithmetic, periods and radii as arrays. The code uses n! where the usual normalisation has (2n+1)!!: a harmless change of basis; its divisor is proved not to vanish (Lemmas/Divisor). With series, the result for eps=1e-10 itself is described by the truncation bound (C69_series) and the limit eps -> 0 (C69_limit), not by an explicit bound on C. Zero conductivity divides by zero (excluded; the layers are conducting). Findings: sigma[-1] is unused, list radius raises AttributeError, one radius UnboundLocalError, scalar period TypeError.",
 "C70": "One double operation = exact result rounded to a nearest double, ties in any way; NaN, infinities, overflow and the sign of zero are not modelled. Finding: timestamp truncates, so timestamp(mjd2000('2000-01-01T00:00:11')) is 1 ns early (C70_timestamp_inexact).",
 "C71": "Same floating point model as C70; fmod is exact as in C. Finding: local_time(0.125, -45.00000000000001) is 24.0, outside of the documented [0, 24) (C71_local_time_24).",
 "C12": "C12_degree_float and C12_degree_from_float: also in double precision (degrees up to 2^25 - 2).",
 "C72": "pandas.read_csv is modelled for rows of five words; missing values, quotes, parse_dates and downloads are not. Findings: with a flag that is not ASCII the old HDF5 file is replaced and the flags are lost, with only a warning (C72_nonascii); flags are cut to one character.",
 "C73": "Crash points are lengths of the beginning of the text that reached the file. Findings: an shc-file cut inside of its last number is read without an exception with a wrong coefficient (C73_silent); an shc-file cut between rows is read as a model of lower degree without a warning.",
 "C04": "C04_text and C04_text_reachable are about the characters of the JSON file; the conversion between floats and text is a parameter with the law that float(repr(x)) is x (an instance is given). JSON strings are sequences of Unicode scalar values (no lone surrogates).",
 "C74": "One call of __setitem__ is one step; programs with fullreset or changes of files are excluded in C74_isolated. Finding (C74_race): overlapping contexts over one key in two threads leave the value of one of them behind for good.",
 "C75": "Arrays are contiguous; the order of a constructed model is positive. Finding (C75_alias, C75_live, C75_chaos): float arrays are kept by reference, so writing into an array after passing it changes all models made from it (of a CHAOS model only the time-dependent part follows the break points).",
 "C76": "hdf5storage by its contract (one write is not interrupted, other variables are kept; in an existing file a model_Euler that is no structure is replaced). Findings: parts that the model does not have are taken from the old file (C76_stale); a crash over an old file mixes two models (C76_crash_over); an exception leaves a file that can be loaded (C76_exception).",
 "C77": "Arrays of real numbers in exact arithmetic with NaN; the results for single points are those of C36-C38. Findings: _dipole_to_unit documents that all arrays must broadcast, but np.stack needs equal shapes (C77_dipoles); transform_points accepts more dipoles in GSM than transform_vectors (C77_gsm_dipoles) and more than in SM (C77_shapes); transform_vectors raises for empty arrays where transform_points returns empty ones (C77_refused).",
 "C78": "Exact reals; legendre_poly entry by entry. In the product no radius is zero.",
 "C79": "Exact reals, with NaN as an extra value for roots of negative numbers and divisions by zero (round-off near the poles, which the documentation warns about, is excluded).",
 "C80": "NumPy's ISO 8601 parser is modelled character by character for dates (not for times of the day, NaT, today, now, which the strings built from integers never contain); units of years and months and time zones are left out.",
 "C81": "np.fromstring is modelled without inf and nan; that it only warns (DeprecationWarning) about a word that is no number is the behaviour of the NumPy versions the package supports.",
 "C82": "Exact arithmetic; the matrix of one time is that of C44, C57 and C63.",
 "C83": "The files are lists of characters. Finding: files of the spline models that end within the break points are accepted as zero models (NumPy takes the negative number of rows for 'infer'), IGRF files that end between two rows lose coefficients silently.",
 "C84": "pandas and np.interp by specification (missing cells are NaN, NaN at one end of an interval is NaN inside); datasets written before a crash are in the file. Finding: cut files are accepted silently, with NaN around a wrong time.",
 "C85": "The list is the only state shared between calls; files as in C58. Finding: the list of the caller is changed in place, and the meta data of a later file without Euler angles name satellites that are in neither the file nor the original list.",
 "C86": "np.amin and np.amax return NaN if a time is NaN; SciPy evaluates to NaN there. Finding: a single NaN turns the extrapolation options off and the unrestricted polynomial of the last piece is used silently.",
 "C87": "Numbers are reals with one value for NaN and infinite. np.amin and np.amax of the colatitudes are NaN if one of them is; comparisons with NaN are false, so neither the bounds check nor the treatment of the poles happens. Finding: colatitudes outside [0, 180] are then accepted silently.",
 "C88": "The order of the operations is that of SciPy's evaluate_poly1 (terms added from the lowest power on) and PPoly.derivative; 365.25**deriv is exact for deriv <= 5. No fused multiply-add, no overflow (excluded by the bounds). Extrapolation by polynomials of order 3 and more (see C27) is not bounded here.",
 "C89": "Formatting with eight decimals rounds the exact value of the double (ties to even), reading gives the double next to the decimal number; times go through the conversions of C70. Sign of zero not modelled, therefore the hypothesis on negative coefficients that round to zero for the equality of the texts. The number of times, degrees and the order are below 2^53.",
 "C90": "np.sum is any way of adding up the numbers two at a time (relation `Added`); pow of the C library is any function within one unit in the last place (glibc documents less); sqrt, division and products are rounded to nearest as IEEE 754 requires. The ratio of the radii to the power 2N+4 lies between 2^-500 and 2^500.",
 "C91": "Found: for 0 < theta <= 6e-7 degrees (and as close to 180) the cosine rounds to 1, sqrt(1-costh**2) is 0, and Pnm/sinth is 0/0: B_phi is NaN (the test for poles is theta == 0). The bounds that hold for any cosine with an error of 2^-52 start at 1.3e-6 degrees. Overflow is not modelled; sine and power of the platform are arbitrary.",
 "C92": "The factor (5/2)^n is a worst case (a majorant of the recursions); the bound is informative up to degree 25 or so. The cosine of the platform is any function with doubles in [-1, 1] within 2^-52 of the cosine.",
 "C93": "The bound is a worst case (compare C92). Powers of the radius: any function within 2^-52 of the power, relative. Inputs are numbers; NaN in coordinates is C87. At the poles compare C91.",
 "C94": "The bound is a worst case (compare C92). One point of a grid; arrays and the number of columns are C78. At and near the poles compare C91.",
 "C95": "Given the position of the sun as two doubles (sun_position itself is C42 in exact arithmetic, C102 in double precision). Platform cosine and sine within 2^-52, inverse cosine within 2^-51. That NaN does occur for some libraries is not claimed.",
 "C96": "Squares are rounded products. Platform cosine and sine within 2^-52, arctan2 within 2^-51; signs of zeros are not modelled.",
 "C97": "Compare C40 and C41 for exact arithmetic. fmod is exact by IEEE 754; that its result is a double is proved (fmod_double). The signs of zeros are not modelled.",
 "C98": "Makes the documented warning about round-off near the poles precise. C98_numbers assumes relative accuracies of the platform's x**3 (4 ulp) and x**(1/3) (256 ulp), and that the computed cosine is not smaller than 2^-100 in size. Accuracy is C99; overflow is not modelled. The three points at the pole are evaluated step by step; each step is a theorem about all roundings.",
 "C99": "Closer than 50 km to the axis nothing is claimed (C98 shows NaN on the axis). The platform's functions are within stated bounds, the cosine is not smaller than 2^-100 in size (true for doubles). The default ellipsoid means the doubles nearest to 6378.137 and 6356.752. Overflow is not modelled (none occurs in this range).",
 "C100": "Only the coordinates, not the rotation of vector components. The tangent is within four units in the last place for arguments below pi/2 in size; pow4 (the square of the squared ratio, x**4) within 4/2^52 on [1/2, 1]. The default ellipsoid means the doubles nearest to 6378.137 and 6356.752. Overflow is not modelled (none occurs in this range).",
 "C101": "For one point (shapes: C79). The components are at most M with 2^-90 <= M <= 2^90, so that underflow does not matter; the error is relative to M. The round trip needs the region of C99; the vector is returned relative to the returned colatitude, which differs by up to 1e-8 degrees.",
 "C102": "For one time (shapes: C42, C79). Time is a double of at most 36525 days (a century) from 2000-01-01, which covers the documented range 1901-2099; np.tan is within 4 ulp for angles below 90 degrees, np.arctan within 2^-51. The specification sunDir (Spec/Sun.lean) states the exact formulas over the real numbers.",
 "C103": "For one time and one dipole (shapes: C36, CoordArr). For other dipoles C103_gsm and C103_sm need |cos| <= 0.9 for the angle between dipole axis and sun. The order of np.add.reduce in the norm is left open (three possible orders).",
 "C104": "For one point with the dipole given by three coefficients. The error is stated for the direction (unit vector) and not for the angles, since the azimuth is arbitrary at the poles; for eta from 1e-14 to 1e-5.",
 "C105": "For one point with the dipole given by three coefficients. The inner products of np.matmul are a parameter with an assumed error of 2e-14 for factors up to 2 (met by the rounded sum from left to right, Examples/FloatVectors).",
 "C106": "For one time and one point; grids and broadcasting are in the model over the reals (C53).",
 "C107": "For one time. Coefficients that do not vanish identically on the piece have a value between 2^-198 and 2^198, and K is at most 2^20."
}