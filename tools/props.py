#!/usr/bin/env python3
"""Generates ../properties.jsonl (kept in git so that the list is easy to edit)."""
import json, os
P = []
def p(title, statement, quantifier, why, anchors):
    P.append(dict(id="C%02d" % (len(P) + 1), title=title, statement=statement,
                  quantifier=quantifier, why_tests_cant=why, anchors=anchors))

CF = "chaosmagpy/config_utils.py"
DU = "chaosmagpy/data_utils.py"
MU = "chaosmagpy/model_utils.py"
CU = "chaosmagpy/coordinate_utils.py"
CH = "chaosmagpy/chaos.py"
PU = "chaosmagpy/plot_utils.py"

# ---- configuration -------------------------------------------------------
p("Configuration invariant",
  "Starting from the default configuration, after any history of item assignments, resets, full resets, file loads and (possibly nested, possibly failing) context blocks, the set of keys is exactly the set of documented parameters, and every stored value is one its validator returned (validators re-accept it unchanged), as long as the files named by the configuration do not disappear.",
  "every finite sequence of configuration operations with arbitrary keys, values, file contents and body failures",
  "the number of operation histories, file contents and nestings is infinite; tests try single assignments",
  [CF + ":BasicConfig.__setitem__", CF + ":BasicConfig.reset", CF + ":BasicConfig.load", CF + ":BasicConfig.context"])
p("Rejected assignment is a no-op with the documented error",
  "Assigning to an unknown key raises KeyError, assigning a value the validator refuses raises the validator's error; in both cases the configuration is unchanged, and a successful assignment changes exactly the assigned key.",
  "every configuration, key and value",
  "keys and values range over infinite sets; frame condition over all other keys",
  [CF + ":BasicConfig.__setitem__", CF + ":check_float", CF + ":check_int", CF + ":check_string", CF + ":check_vector"])
p("Loading a configuration file applies a prefix",
  "Loading a configuration file with entries e1..en behaves exactly like assigning them in file order and stopping at the first rejected entry: the entries before it stay applied, later ones are not, and an invalid entry raises. Loading is therefore not atomic.",
  "every list of file entries and every configuration",
  "depends on the position of the first bad entry in files of arbitrary length",
  [CF + ":BasicConfig.load"])
p("Configuration save/load round trip",
  "Loading a file that was written by save from a valid configuration restores that configuration from any other configuration (given the files referred to still exist).",
  "every pair of valid configurations",
  "quantifies over all configurations reachable by any history",
  [CF + ":BasicConfig.save", CF + ":BasicConfig.load"])
p("Context blocks restore on normal exit",
  "A context block that is entered and left normally restores every overridden parameter to its previous value whatever was nested inside it, leaving the configuration as the body left it elsewhere; if the body raises, the overridden values are not restored.",
  "every body (any nesting of contexts and assignments), every override list, every starting configuration",
  "nesting depth and body histories are unbounded",
  [CF + ":BasicConfig.context"])
p("Version strings are recognised by substring",
  "The version validator accepts a string exactly if it contains somewhere a digit, a dot and a digit next to each other (and returns it unchanged, otherwise ValueError); in particular accepted strings need not be of the form digits.digits.",
  "every string",
  "infinitely many strings; regular-expression search semantics",
  [CF + ":check_version_string"])

# ---- time ----------------------------------------------------------------
p("Leap years follow the Gregorian rule and count days correctly",
  "is_leap_year is true exactly for years with 366 days between consecutive 1 January dates as computed by mjd2000, and input that is not of NumPy's default integer type (decimal years, but also 32-bit integers) raises TypeError.",
  "every integer year",
  "infinitely many years",
  [DU + ":is_leap_year", DU + ":mjd2000"])
p("mjd2000 counts days since 2000-01-01",
  "For every existing calendar date with a four-digit year, within 2^63 nanoseconds of 2000-01-01 (1707-09-22 to 2292-04-10), mjd2000 returns the exact number of days (with fraction) since 2000-01-01T00:00; successive days differ by exactly one, across month, year and century ends, and non-existing dates or years without four digits raise ValueError. Outside that window the number of nanoseconds is off by a multiple of 2^64.",
  "every year, month, day, hour, minute, second, microsecond, nanosecond",
  "unbounded date space and 64-bit wrap-around",
  [DU + ":mjd2000"])
p("Decimal year and MJD conversions are mutually inverse",
  "For both leap-year conventions, mjd_to_dyear(dyear_to_mjd(y)) = y and dyear_to_mjd(mjd_to_dyear(t)) = t in exact arithmetic, for every time from 1 January 1708 to 1 January 2292 when leap years are taken into account, and for all times otherwise.",
  "every real decimal year / modified Julian date in the safe range, both conventions",
  "continuum of inputs with case splits at every year boundary",
  [DU + ":dyear_to_mjd", DU + ":mjd_to_dyear"])
p("Time conversion is strictly monotone",
  "dyear_to_mjd and mjd_to_dyear are strictly increasing, and map 1 January of year Y to the decimal year Y.0 and back.",
  "all pairs of real times in the safe range",
  "pairs of reals across any number of year boundaries",
  [DU + ":dyear_to_mjd", DU + ":mjd_to_dyear"])
p("timestamp and mjd2000 invert each other to the nanosecond",
  "timestamp(t) is a nanosecond instant within one nanosecond of t and not further from 2000-01-01 than t, and converting an instant with mjd2000 and back returns the same instant.",
  "every real t and every nanosecond instant in range",
  "continuum of inputs, truncation toward zero on both sides of the epoch",
  [DU + ":timestamp", DU + ":mjd2000"])

# ---- coefficient layout, shc files --------------------------------------
p("Gauss coefficient order is a bijection",
  "The coefficient ordering used everywhere (n ascending, and within n: (n,0),(n,1),(n,-1),...,(n,n),(n,-n)) puts degree n, order m at position n^2-1 (m=0), n^2+2m-2 (m>0) and n^2+2|m|-1 (m<0): this is a bijection between positions below N(N+2) and the (n,m) with 1<=n<=N, |m|<=n, and the degree inferred from an array size is int(sqrt(dim+1)-1).",
  "every maximum degree N and every coefficient position",
  "unbounded degree",
  [DU + ":save_shcfile", CU + ":rotate_gauss_fft", CH + ":BaseModel"])
p("SHC save/load round trip",
  "Reading back a file written by save_shcfile gives back the time knots, the requested degree window nmin..nmax of the coefficients (row/column order preserved) and the header parameters, up to rounding every number to the 8 printed decimals; values that have at most 8 decimals come back unchanged.",
  "every number of times, coefficients, degrees nmin<=nmax, orders, header comments and every real value",
  "sizes and values unbounded; printing/parsing at character level",
  [DU + ":save_shcfile", DU + ":load_shcfile"])

# ---- forward evaluation --------------------------------------------------
p("Legendre table is the Schmidt semi-normalised associated Legendre function",
  "legendre_poly(nmax, theta) holds, for every 0<=m<=n<=nmax, the Schmidt semi-normalised associated Legendre function of degree n and order m at cos(theta) (closed form with the m-th derivative of the Legendre polynomial, normalisation sqrt(2(n-m)!/(n+m)!) for m>0), and in the transposed part its derivative with respect to theta.",
  "every nmax >= 1, every colatitude in [0, 180], every 0<=m<=n",
  "in-place recursion over an unbounded table; equality of functions on a continuum",
  [MU + ":legendre_poly"])
p("Legendre table is fully and only written where defined",
  "The in-place filling never reads an entry before it is written, and does not overwrite an entry another loop still needs (values and derivatives share one array): the loop program computes the same table as the mathematical recursion.",
  "every nmax and theta",
  "aliasing bugs depend on nmax; unbounded loops",
  [MU + ":legendre_poly"])
p("Field values equal minus the gradient of the potential",
  "For internal (and external) source, the three components returned by synth_values are the components of minus the gradient, in spherical coordinates, of the scalar potential with the given Gauss coefficients, at every point off the poles.",
  "every degree, order truncation, coefficient vector, radius > 0, colatitude in (0,180), longitude",
  "identity between functions on a continuum for unbounded degree",
  [MU + ":synth_values", MU + ":legendre_poly"])
p("synth_values equals the design matrix product",
  "synth_values(coeffs, ...) equals the product of design_gauss(...) with the coefficient vector for every component, source, nmin, nmax, mmax; the running coefficient counter and running radial factor of the loops always agree with the closed-form column index and power of the radius.",
  "every nmin<=nmax, mmax, source, location, coefficient vector",
  "loop invariants with two running variables over unbounded degree",
  [MU + ":synth_values", MU + ":design_gauss"])
p("Field synthesis is linear and additive over degrees",
  "synth_values is linear in the coefficients, and splitting a degree window nmin..nmax at any degree splits the field into the sum of the two windows.",
  "every coefficient vectors, scalars, windows and split degree",
  "unbounded sizes",
  [MU + ":synth_values"])
p("Azimuth periodicity and radial scaling",
  "synth_values is unchanged when the longitude is shifted by 360 degrees, and the degree-n part scales with radius as r^-(n+2) for internal and r^(n-1) for external sources.",
  "all longitudes, all radii, all degrees",
  "continuum of inputs",
  [MU + ":synth_values"])
p("Argument resolution of synth_values",
  "Missing nmax/mmax are inferred so that the coefficients consumed are exactly those addressed, surplus coefficients are ignored, inconsistent input (nmin=0, nmax<nmin, unknown source, coefficient vector too short) raises and never returns a partial field; with mmax above the degree supported by the coefficients and no nmax, the inferred degree is wrong and the call raises IndexError.",
  "every combination of dimension, nmin, nmax, mmax",
  "four-dimensional unbounded integer space",
  [MU + ":synth_values", MU + ":design_gauss"])
p("Colatitude validation at the poles",
  "A colatitude array strictly inside [0,180] is accepted; arrays with values outside raise unless the minimum is exactly 0 or the maximum exactly 180 degrees - an out-of-range colatitude slips through when another point is exactly at a pole.",
  "every finite array of colatitudes",
  "depends on combinations of array entries",
  [MU + ":synth_values"])
p("Pole values are the limits",
  "At colatitude 0 or 180 degrees the returned components are the limit of the values along the meridian, so the field is continuous there.",
  "every degree, coefficient vector, longitude",
  "limits on a continuum for unbounded degree",
  [MU + ":synth_values"])

# ---- splines -------------------------------------------------------------
p("B-spline collocation rows are a partition of unity",
  "Every row of the collocation matrix inside the break range is non-negative, sums to one, and has at most `order` non-zero entries located at the interval that contains the point; derivatives of order >= spline order are identically zero.",
  "every strictly increasing break list, spline order, point",
  "unbounded orders and knots, continuum of points",
  [MU + ":colloc_matrix", MU + ":augment_breaks"])
p("Knot augmentation",
  "augment_breaks adds order-1 copies of each end, giving a sorted list of length n+2(order-1) whose distinct values are the breaks; order 1 returns the breaks.",
  "every break list and order",
  "unbounded sizes",
  [MU + ":augment_breaks"])
p("Design matrix column layout",
  "The product of design_matrix with a model vector [tdep coefficients in blocks of n spline coefficients | static coefficients] equals the field synthesised from the spline-evaluated time-dependent coefficients concatenated with the static ones; invalid degree combinations raise.",
  "every number of data, spline order, degree, model vector",
  "unbounded sizes, Kronecker-like index arithmetic",
  [MU + ":design_matrix"])
p("Piecewise-polynomial evaluation inside the model interval",
  "For times inside the model interval synth_coeffs returns the value (or deriv-th derivative per year) of the polynomial piece whose half-open interval contains the time (last interval closed), for every extrapolation option, including when other times of the same call lie outside.",
  "every piecewise polynomial, derivative, time array, extrapolation option",
  "depends on all other entries of the time array",
  [CH + ":Base.synth_coeffs"])
p("Extrapolation options behave as documented",
  "Outside the interval: 'off'/False returns NaN, 'constant' the end value, 'linear' the tangent line at the end; 'quadratic', 'cubic' and 'spline' should return the Taylor polynomial of that order at the end point. The code omits the 1/k! factors, so this fails for orders above linear.",
  "every piecewise polynomial, times before and after the interval, options",
  "continuum of times; tests use linear models",
  [CH + ":Base.synth_coeffs"])
p("Evaluation is independent of the other times in the call",
  "The value returned for a time does not depend on which other times are in the same call. True for values (deriv=0); for derivatives at the right end point it fails, since the presence of a later time switches the end point to the extrapolation piece.",
  "every time array",
  "depends on the composition of the array",
  [CH + ":Base.synth_coeffs"])
p("Truncation returns a prefix",
  "synth_coeffs with smaller nmax returns the prefix of the coefficients of the full evaluation, too large nmax gives the full vector, missing coefficients raise ValueError.",
  "every model and nmax",
  "unbounded sizes",
  [CH + ":BaseModel.synth_coeffs", CH + ":Base.synth_coeffs"])
p("Piecewise-polynomial structs round trip through MAT layout",
  "The reshape/transposition used by to_ppdict and the one used on loading are inverse: coefficients, breaks, order and dimension survive.",
  "every order, number of pieces, dimension",
  "index arithmetic over unbounded shapes",
  [CH + ":Base.to_ppdict", CH + ":load_CHAOS_matfile"])
p("to_shc/from_shc reproduces the model",
  "Exporting a continuous model of order k to shc (k-1 extra points per interval) and importing it again gives back the same coefficient time series on the model interval, for orders 1 and 2; knots and start index arithmetic is exact.",
  "every number of pieces, dimension, coefficient values",
  "unbounded sizes",
  [CH + ":BaseModel.to_shc", CH + ":BaseModel.from_shc"])

# ---- CHAOS model ---------------------------------------------------------
p("Calling the model sums the selected sources",
  "CHAOS.__call__ returns the sum of the fields of the selected sources, each counted once: it does not depend on the order or multiplicity of source_list, 'all' is the sum of 'internal' and 'external', and unknown names contribute nothing (silently).",
  "every source list (any length, order, duplicates, unknown names)",
  "exponentially many subsets and orders",
  [CH + ":CHAOS.__call__"])
p("GSM coefficients are linear in the model coefficients",
  "synth_coeffs_gsm is linear in the stored GSM coefficients, for internal and external source, and truncation by nmax returns a prefix; requesting an unknown source raises ValueError.",
  "all times, coefficient values, nmax, sources",
  "continuum",
  [CH + ":CHAOS.synth_coeffs_gsm"])
p("SM coefficients are affine in the RC index",
  "synth_coeffs_sm is an affine function of the RC value, the interpolated RC index lies between neighbouring tabulated values and equals them at the nodes, times outside the RC table raise ValueError.",
  "all times, RC tables, coefficient values",
  "continuum and arbitrary tables",
  [CH + ":CHAOS.synth_coeffs_sm"])
p("External field 'all' is external plus internal",
  "synth_values_gsm/sm with source 'all' equals the sum of the results for 'external' and 'internal'; any other source raises ValueError.",
  "all inputs",
  "continuum",
  [CH + ":CHAOS.synth_values_gsm", CH + ":CHAOS.synth_values_sm"])

# ---- coordinates ---------------------------------------------------------
p("Rotation matrices are orthogonal",
  "matrix_geo_to_base and transform_vectors preserve the length of vectors and the radial component, and the inverse option undoes the forward transform, for gsm, sm and mag references.",
  "all times, positions, dipoles, vectors (non-degenerate geometry)",
  "continuum",
  [CU + ":matrix_geo_to_base", CU + ":transform_vectors", CU + ":geo_to_base"])
p("Base vectors are right-handed orthonormal",
  "basevectors_gsm, basevectors_sm, basevectors_mag, basevectors_use return right-handed orthonormal triples whenever sun/dipole directions are not parallel; GSM and SM share their y axis.",
  "all non-degenerate geometries",
  "continuum",
  [CU + ":basevectors_gsm", CU + ":basevectors_sm", CU + ":basevectors_mag", CU + ":basevectors_use"])
p("Spherical and cartesian coordinates are inverse",
  "spherical_to_cartesian and cartesian_to_spherical invert each other, and transform_points with inverse option undoes transform_points.",
  "all points",
  "continuum",
  [CU + ":spherical_to_cartesian", CU + ":cartesian_to_spherical", CU + ":transform_points"])
p("Geodetic and geocentric conversions",
  "gg_to_geo and geo_to_gg agree with the textbook definition of geodetic coordinates and invert each other (both ways), and the vector components describe the same vector both ways.",
  "all heights above the ellipsoid, latitudes, vectors",
  "continuum, closed-form quartic solution",
  [CU + ":gg_to_geo", CU + ":geo_to_gg", CU + ":basevectors_gg"])
p("center_azimuth",
  "center_azimuth returns the unique angle in (-180,180] congruent to the input modulo 360; it is idempotent.",
  "all angles",
  "continuum",
  [CU + ":center_azimuth"])
p("local_time",
  "local_time lies in [0,24), advances 24 h per day and 1 h per 15 degrees of longitude, and is periodic.",
  "all times and longitudes",
  "continuum",
  [CU + ":local_time"])
p("Sun position range and validity check",
  "sun_position returns a colatitude in (0,180) and longitude in (-180,180] that point along the direction of the sun given by Russell's formulas (ecliptic longitude, obliquity, sidereal time); the documented validity window 1901-2099 is enforced only at the upper end.",
  "all times",
  "continuum",
  [CU + ":sun_position"])
p("Dipole specifications agree",
  "The three dipole input forms (one scalar / (theta,phi) / three Gauss coefficients) give the same unit vector, antiparallel to (g11,h11,g10), independent of positive scaling.",
  "all dipoles",
  "continuum",
  [CU + ":_dipole_to_unit", CU + ":dipole_to_vec"])
p("Fourier rotation matrices reproduce the sampled rotation",
  "The harmonic synthesis of the stored half spectrum returns the sampled rotation matrix at the sampling times, counted from the first sample (start date zero); this holds for odd numbers of samples and fails at the Nyquist frequency for even numbers. A start date other than zero shifts the phase, and components written unscaled are synthesised wrongly when read back from the file.",
  "every number of samples and every sampled signal",
  "unbounded transform length",
  [CU + ":rotate_gauss_fft", CU + ":synth_rotate_gauss"])
p("Spherical harmonic analysis recovers expansions",
  "sh_analysis applied to a constant plus any spherical harmonic expansion up to degree K <= max(nmax, kmax) returns exactly its coefficients up to degree nmax, and zeros for degrees above K (given a quadrature rule with the promised exactness, which exists for every number of points).",
  "every degree and coefficient vector",
  "unbounded degree",
  [CU + ":sh_analysis"])
p("Q-response of a layered sphere",
  "q_response_1D (kind='quadratic') returns the exact response of the layered sphere: C is u/u' at the surface of the regular solution of the induction equation for the conductivity sigma[k]*(radius[k]/r)**2 in layer k, and an induced potential coefficient i belongs to an inducing coefficient e if and only if i = Q*e. Hence the response is passive (|Q| < n/(n+1), Re Q >= 0, Im Q >= 0, 0 < Re C <= radius[0]/(n+1), Im C <= 0), vanishes for a non-conducting sphere, and depends only on the conductivity profile and not on the division into layers. q_response returns, for every degree and frequency, Q at the period 1/f, and zero for frequencies that are not positive.",
  "every layer profile, frequency, degree",
  "layer lists of unbounded length; complex functions",
  [CU + ":q_response_1D", CU + ":q_response"])
# ---- statistics of coefficients -----------------------------------------
p("Power spectrum per degree",
  "power_spectrum sums the squares of exactly the 2n+1 coefficients of degree n with the documented factor per source; it is non-negative, scales quadratically, and the downward continuation in radius composes.",
  "every degree, coefficient vector, radius, source",
  "unbounded degree",
  [MU + ":power_spectrum"])
p("Degree correlation",
  "degree_correlation lies in [-1,1], is symmetric, is 1 for a model with itself (and -1 with its negative), and is invariant under positive scaling; different dimensions raise.",
  "every pair of coefficient vectors",
  "continuum, unbounded degree",
  [MU + ":degree_correlation"])
p("Sensitivity",
  "sensitivity returns for each coefficient (n, m) the difference to the true coefficient divided by the root mean square of the true coefficients of degree n (NaN or infinite if these vanish); different numbers of coefficients raise ValueError.",
  "every pair of coefficient vectors",
  "unbounded degree",
  [MU + ":sensitivity"])
# ---- loaders -------------------------------------------------------------
p("IGRF loader interpolates the table",
  "The model loaded from an IGRF text file takes the tabulated values at the epochs, the last epoch extended five years with the secular variation, and is linear in between.",
  "every table size and values",
  "unbounded sizes",
  [CH + ":load_IGRF_txtfile"])
p("Zero-padded spline loaders",
  "For CovObs, gufm1 and CALS models the padded coefficient array has exactly the number of coefficients that the augmented knots require, and zero-padded splines equal the original splines inside the model interval. Break points that are not sorted, or all equal, are refused.",
  "every order >= 2, number of knots",
  "unbounded sizes",
  [CH + ":load_CovObs_txtfile", CH + ":load_gufm1_txtfile", CH + ":load_CALS7K_txtfile"])
p("Keyword defaults",
  "defaultkeys keeps every user keyword that is not None, fills in missing or None ones with the default, and keeps all others.",
  "every pair of dictionaries",
  "arbitrary dictionaries",
  [PU + ":defaultkeys"])
p("Models built from B-splines evaluate the splines",
  "BaseModel.from_bspline applied to augmented knots returns a model with the spline's breaks, order and dimension whose synth_coeffs inside the model interval (values and all derivatives, per year) equals the collocation matrix times the spline coefficients, i.e. the textbook B-spline sum.",
  "every strictly increasing break list, order, dimension, coefficient array, time and derivative",
  "conversion goes through Taylor coefficients at the knots; must agree at every point, for every order and number of pieces",
  [CH + ":BaseModel.from_bspline", MU + ":pp_from_bspline", MU + ":colloc_matrix"])

p("Zenith angle",
  "zenith_angle returns an angle in [0,180] whose cosine is the scalar product of the directions of the point and of the sun; times that sun_position does not accept raise AssertionError.",
  "all times and points",
  "continuum; the formula goes through several angle reductions",
  [CU + ":zenith_angle", CU + ":sun_position"])

p("Points of a call do not influence each other",
  "CHAOS.__call__ for many points (valid colatitude, positive radius) succeeds exactly if the calls for the single points, with their times and RC values, all succeed, and it returns their values.",
  "every CHAOS model with complete degrees, source list, number of points, times inside and outside the model interval",
  "the implementation decides about extrapolation, poles and RC bounds from the whole array",
  [CH + ":CHAOS.__call__", CH + ":CHAOS.synth_values_tdep", CH + ":CHAOS.synth_values_static", CH + ":CHAOS.synth_values_gsm", CH + ":CHAOS.synth_values_sm"])
p("Every CHAOS source is a potential field of its synthesised coefficients",
  "The field returned by synth_values_tdep, synth_values_static, synth_values_gsm and synth_values_sm at a point is minus the gradient of the internal or external potential with the coefficients returned by the corresponding synth_coeffs method for the time of this point, truncated at min(nmax, model degree).",
  "every model, time, point, nmax, source",
  "continuum of points; the method chains several broadcasting calls",
  [CH + ":BaseModel.synth_values", CH + ":CHAOS.synth_values_gsm", CH + ":CHAOS.synth_values_sm", MU + ":synth_values"])

p("Rotation matrices transform expansions exactly",
  "For orthonormal right-handed base vectors rotate_gauss returns a matrix with nmax(nmax+2) rows and kmax(kmax+2) columns such that for all coefficients of the rotated system and all points the expansion with the transformed coefficients at the geographic coordinates equals, degree by degree, the original expansion at the rotated coordinates (hence also the internal and external potentials everywhere); degrees do not mix, the transformed coefficients are the only ones with this property, the matrix of the geographic axes is the identity, and matrices compose like rotations. Degree zero raises IndexError.",
  "all nmax, kmax >= 1, all orthonormal bases, all coefficient vectors, all points",
  "continuum of rotations and points, unbounded degrees; correctness rests on the exactness of the quadrature for products of harmonics of the two systems",
  [CU + ":rotate_gauss", CU + ":geo_to_base"])

p("MAT-files: saving and loading",
  "CHAOS.save_matfile followed by load_CHAOS_matfile (with the model's name and satellite names) reproduces the model: time-dependent and static part, SM coefficients, Euler angles, prerotation and calibration parameters unchanged; of the GSM coefficients the zonal ones of degrees one and two, and one set of break points for the offsets q11 and s11. A model loaded from a file, saved and loaded again is the same model. Models without time-dependent part, with more than one calibrated satellite or with a single q11 interval are saved but cannot be loaded.",
  "every model with complete parts and consistent sizes: any order, numbers of pieces, coefficients, satellites and intervals",
  "unbounded sizes; transposed, squeezed and re-expanded axes hide errors for special shapes",
  [CH + ":CHAOS.save_matfile", CH + ":load_CHAOS_matfile", CH + ":Base.to_ppdict", CH + ":CHAOS.__init__", "chaosmagpy/data_utils.py:load_matfile"])
p("Euler angles",
  "synth_euler_angles returns the three angles of the interval that contains the time (outside the model interval, those of the nearest interval unless extrapolation is off); an unknown satellite raises ValueError, a model without Euler angles TypeError.",
  "every model, satellite, number of intervals, times",
  "continuum of times, unbounded numbers of intervals",
  [CH + ":CHAOS.synth_euler_angles"])

p("SHC-files of CHAOS models",
  "CHAOS.save_shcfile followed by load_CHAOS_shcfile gives a model with the saved part only: for the time-dependent part (a spline) synth_coeffs_tdep has the same result for every time and option; for the static part the coefficients above the degree of the time-dependent part survive and lower ones are zero. Missing parts raise ValueError.",
  "every spline order, number of pieces, degrees, times, derivatives and extrapolation options",
  "the file holds samples, the spline is reconstructed by least squares; must agree at every time",
  [CH + ":CHAOS.save_shcfile", CH + ":load_CHAOS_shcfile", CH + ":BaseModel.to_shc", CH + ":BaseModel.from_shc"])

p("Arrays, broadcasting and grid in synth_values",
  "For coefficients of shape (..., d) and radii, colatitudes and longitudes whose shapes can be broadcast to a non-empty shape G, synth_values returns arrays of shape G; the value at an index is the field of the coefficients at this index at the point of this index, exactly as if every point were computed separately (including exceptions and the treatment of poles). With grid=True colatitudes get a new last axis and longitudes a new axis before the last one, so N colatitudes and M longitudes give the N x M map. Shapes that do not fit raise ValueError.",
  "all shapes, numbers of axes, arrays, degrees, sources",
  "unbounded numbers of axes and sizes; axis mix-ups are invisible for square or one-dimensional test arrays",
  [MU + ":synth_values"])
p("Arrays and grid in CHAOS calls",
  "CHAOS.__call__ and the synth_values methods of its parts, called with arrays of times, radii, colatitudes, longitudes (and RC values per time) whose shapes can be broadcast to G, return arrays of shape G whose value at an index is the field for the time and point of this index, exactly as for the flat list of all points (also the exceptions); grid=True works as in synth_values; shapes that do not fit raise ValueError, also if no source is selected.",
  "every CHAOS model, all shapes, source lists and options",
  "unbounded numbers of axes; parts have different shapes (the static part has no time axis) and are summed in place",
  [CH + ":CHAOS.__call__", CH + ":CHAOS.synth_values_tdep", CH + ":CHAOS.synth_values_static", CH + ":CHAOS.synth_values_gsm", CH + ":CHAOS.synth_values_sm", CH + ":BaseModel.synth_values"])

p("Fourier series of the rotation matrices and the external fields",
  "rotate_gauss_fft writes, for GSM or SM, the Fourier series of the matrices that rotate Gauss coefficients of the reference system to the geographic one at the sampling times: read by synth_coeffs_gsm or synth_coeffs_sm, a file of scaled components with an odd number of samples from time zero gives at each sampling time coefficients whose potential at a point is that of the model coefficients at the GSM or SM coordinates of the point. With an even number of samples (the default) the Nyquist component is counted twice. The induced part is the same series with each harmonic multiplied by the Q-response of the degree of the row at that period, without constant term. Unknown references, times after 2098 and too large filters are refused.",
  "all degrees, steps, numbers of samples, dipoles within 45 degrees of the axis, conductivity models, points of space and coefficients",
  "composition of base vectors, quadrature, FFT, sorting, response and file with an independent reader; the field must agree at every point",
  [CU + ":rotate_gauss_fft", CU + ":rotate_gauss", CU + ":synth_rotate_gauss", CU + ":q_response", CU + ":transform_points", CH + ":CHAOS.synth_coeffs_gsm", CH + ":CHAOS.synth_coeffs_sm"])

p("Configuration arrays and references",
  "Array values handed to basicConfig are copied: code that goes on writing into its own arrays never changes the configuration, and a program that takes no array out of it behaves like one without arrays. Arrays taken out of the configuration are the stored objects. After import and after fullreset these are the defaults themselves: writing into them changes the defaults, which reset and fullreset then restore wrongly; once both vector keys were reset or assigned and no reference to the defaults is kept, no program without fullreset changes the defaults. A context restores an array exactly if no reference to the old array was kept before it, otherwise writes through that reference survive.",
  "all programs of assignments, resets, loads, nested contexts, exceptions, array creation, element access and in-place writes",
  "unbounded histories of operations with shared references",
  ["chaosmagpy/config_utils.py:BasicConfig", "chaosmagpy/config_utils.py:DEFAULTS", "chaosmagpy/config_utils.py:check_vector"])

p("Fields from pp-dictionaries",
  "synth_from_pp gives for every break points, coefficients and points the field - and NaN and exceptions - that a model with these break points and coefficients gives with extrapolation turned off: minus the gradient of the potential whose coefficients are the deriv-th time derivative per year of the polynomial piece that contains the time of the point; NaN exactly outside the break points. The argument order has no effect; a number of pieces that does not match the break points raises ValueError.",
  "every strictly ascending break point list, order, dimension, derivative, nmax, points",
  "continuum of times and points; unbounded numbers of pieces",
  [MU + ":synth_from_pp"])
p("Power spectra of arrays and of models",
  "power_spectrum of a coefficient array along an axis returns an array of the same shape except that axis, whose rows are the spectra of the rows of coefficients; a missing axis raises IndexError. The power_spectrum method of a model gives for each time the spectrum of the coefficients synthesised at this time (NaN rows for NaN), and for potential models the sum over degrees is the mean over the sphere of the squared field that synth_values gives at this time.",
  "all shapes, axes (also negative), sources, radii, truncations, times",
  "unbounded shapes; the Parseval identity is about every coefficient vector and an integral over the sphere",
  [MU + ":power_spectrum", CH + ":BaseModel.power_spectrum"])

p("Plot functions",
  "plot_maps draws the maps row by row in the order of the arguments at longitude and latitude 90 - theta (radians) with the title of the same number; colour limits that are not given are plus and minus the greatest absolute value of the first map, for all maps. plot_timeseries draws the values against the dates of the times. plot_power_spectrum draws the power of degree n at n with gaps at vanishing power (and writes these gaps into the array of the caller). A layout that does not have as many places as there are data raises ValueError, a map that does not fit to the grid TypeError. gauss_units returns the documented unit for every derivative but the first.",
  "all grids, arrays, layouts, title lists and keywords, derivatives",
  "unbounded numbers of maps and sizes; shared limits and mutation depend on the data",
  [PU + ":plot_maps", PU + ":plot_timeseries", PU + ":plot_power_spectrum", DU + ":gauss_units", PU + ":defaultkeys"])
p("Plotting methods of models",
  "plot_maps of a potential model draws the three components of minus the gradient of the potential of its coefficients (or their derivative) at the time at 320 x 640 points of the sphere, plot_timeseries the components at one place at 500 equidistant times of the model interval, plot_power_spectrum the power of each degree at the time; plot_maps_static uses the limits -200 and 200 unless given; plot_maps_external draws the components of the GSM field, the SM field or their sum at 320 x 721 points, succeeds if the values exist at all of them and fails if one does not; unknown references or sources and missing parts raise ValueError.",
  "every model, time, radius, degree, derivative; every reference and source name",
  "composition of grid, synthesis and drawing for every model; the field must be right at each point",
  [CH + ":BaseModel.plot_maps", CH + ":BaseModel.plot_timeseries", CH + ":BaseModel.plot_power_spectrum", CH + ":CHAOS.plot_maps_tdep", CH + ":CHAOS.plot_timeseries_tdep", CH + ":CHAOS.plot_maps_static", CH + ":CHAOS.plot_maps_external"])

p("Induction response of uniform layers",
  "q_response_1D with kind='constant' gives, for every degree, period and stack of uniform conducting layers above a perfectly conducting core, the response of that conductor: the power series end and are summed up to the stated precision where they are used (|z| < 3), no divisor vanishes, for ever smaller precision C and Q converge to the unique ratios u/u' and internal/external of the solutions of the induction equation, and if no layer needs a series the results are exactly these. |Q| is below n/(n+1), Re C is in (0, r0/(n+1)], C lags. The conductivity of the core has no influence; only the conductivity as a function of the radius matters. A scalar period raises TypeError, a single radius UnboundLocalError, missing conductivities IndexError; it never hangs.",
  "every degree n >= 1, period, number of layers, conductivities > 0, decreasing radii",
  "a statement about all solutions of a differential equation, an unbounded number of layers and limits of series",
  [CU + ":q_response_1D"])

p("Time conversions in double precision",
  "In IEEE double precision, for every rule for ties: mjd_to_dyear(dyear_to_mjd(t)) is t itself, bit for bit, for every double t from 1708 up to 2292, with and without leap years, and dyear_to_mjd is strictly increasing on these doubles; dyear_to_mjd(mjd_to_dyear(x)) differs from x by less than 1e-10 days; mjd2000 of a date is the exact integer and timestamp of it the exact midnight; timestamp(mjd2000(d)) differs from d by at most two microseconds wherever datetime64[ns] exists, by less than 250 ns from 1964 to 2036, and is not always d.",
  "every double, date and nanosecond time stamp of the stated ranges, every nearest rounding",
  "2^52 doubles per binade; the rounding errors of five operations must never add up to a different double",
  [DU + ":dyear_to_mjd", DU + ":mjd_to_dyear", DU + ":mjd2000", DU + ":timestamp"])
p("Azimuths and local times in double precision",
  "In IEEE double precision, center_azimuth maps every finite azimuth into (-180, 180], to the same direction up to 2^-45 degrees (exactly if it is not negative), and is idempotent. local_time is between 0 and 24 hours and agrees with the exact local time modulo 24 up to 2^-31 hours; the value 24 (outside of the documented interval) occurs, but only for times less than 2^-52 days before midnight.",
  "every finite double azimuth; every double time up to 131072 days and every longitude up to 720 degrees, every nearest rounding",
  "all doubles; the boundary cases of remainders of tiny negative numbers",
  [CU + ":center_azimuth", CU + ":local_time"])

p("Files of the RC-index",
  "load_RC_datfile reads a text of comments, blank lines and lines of four decimal numbers and a flag as the columns time, RC, RC_e, RC_i and flag, in order; a word that is not a number raises ValueError. save_RC_h5file writes these columns to an HDF5 file (flags by their first character) and changes no other file; if the text cannot be read or the file cannot be opened then nothing changes and it warns. SM coefficients computed with the saved file in the configuration are those computed with the text file, also if the file is saved to the path it was read from.",
  "every text of that form (any number of entries, comments, spacing and notation of numbers), every file system and path, also equal paths",
  "unbounded texts; equivalence of two formats and the effect on other files hold for every content",
  [DU + ":load_RC_datfile", DU + ":save_RC_h5file", CH + ":CHAOS.synth_coeffs_sm"])

p("Files cut short",
  "Whatever beginning of a file is left by a crash while it is written or by an interrupted copy: loading a cut-off configuration file raises an exception and changes no configuration value, for every configuration that a program can reach and every place of the cut. Loading a cut-off shc-file raises an exception, or returns no coefficients, or returns the right parameters, times and first rows of coefficients where at most the last value of the last row is wrong; that value can be wrong without any exception.",
  "every reachable configuration and every saved or well-formed shc text; every crash point (length of the beginning that is left)",
  "one case for every character of every possible file",
  ["chaosmagpy/config_utils.py:BasicConfig.save", "chaosmagpy/config_utils.py:BasicConfig.load", DU + ":save_shcfile", DU + ":load_shcfile"])

p("Threads and the configuration",
  "The configuration is shared by all threads. Threads whose programs of assignments, resets, loads, nested contexts and try-blocks assign different keys do not disturb each other: for every schedule a finished thread has ended like the program alone, its keys have the values they would have then and keys that nobody assigns keep theirs; each thread ends after a number of own steps that the others cannot raise; contexts over different keys leave the configuration as it was. Contexts over the same key in two threads can leave a changed value behind although both ended normally.",
  "every number of threads, every program of each, every schedule (interleaving of the single reads and assignments)",
  "the number of interleavings is unbounded; a test sees the one the scheduler chose",
  ["chaosmagpy/config_utils.py:BasicConfig.context", "chaosmagpy/config_utils.py:BasicConfig.__setitem__", "chaosmagpy/config_utils.py:BasicConfig.load"])

p("Models and the caller's arrays",
  "A model stands for the documented piecewise polynomial of its arguments. It changes only if something is written into an array that shares memory with its break points or coefficients: arguments given as lists, integer arrays or a single break point are copied, so that such a model stays the same whatever happens to these arrays; an array of floats is kept by reference, so that the model (and every other model made from it) follows later writes into it. The arrays returned by to_ppdict and synth_coeffs are new: writing into them changes no model and no other array. The time-dependent part of a CHAOS model follows the caller's break points, the static part does not.",
  "every program (history) of creating, slicing and writing arrays, constructing and evaluating models, taking attributes and pp-dictionaries, of any length",
  "a test sees one history of writes; the claim is about all of them",
  [CH + ":Base.__init__", CH + ":Base.to_ppdict", CH + ":Base.synth_coeffs", CH + ":CHAOS.__init__"])

p("MAT-files that exist already, and crashes while saving",
  "CHAOS.save_matfile into a file that exists lays the variables of the model over the old ones and keeps everything else: a model with all parts is loaded as from a new file, parts that the model does not have are those of the old file. If the process ends at any point while a model is saved to a new file then loading it raises an exception or gives the model with some optional parts missing, never with changed ones; a file that ends between the first write of the Euler angles and the last write cannot be loaded. Over an old file, a crash leaves the first variables of the new model over the old ones. An exception in save_matfile comes after the parts before it have been written.",
  "every model, every old content of the file, every crash point between the writes",
  "every crash point of every model and every old file",
  [CH + ":CHAOS.save_matfile", CH + ":Base.save_matfile", CH + ":load_CHAOS_matfile"])

p("Arrays in coordinate transformations",
  "transform_points and transform_vectors accept arrays of any shapes: the results have the broadcast shape of the positions and the base vectors (for the components: of these and the given components), and every entry is what the function returns for the single point, time, dipole and components that broadcasting pairs at this place. GSM accepts any dipoles and times that broadcast, SM dipoles that fit into the shape of the times, MAG ignores the times. Unknown systems, dipole arguments that are not accepted and arrays that do not fit together raise ValueError; one time from 2099 on raises AssertionError for GSM and SM. transform_vectors raises ValueError for an empty array of colatitudes, for poles, and in GSM for dipoles that do not fit into the shape of the times.",
  "all arrays of all shapes, all dipole arguments, both directions",
  "every combination of shapes",
  [CU + ":transform_points", CU + ":transform_vectors", CU + ":geo_to_base", CU + ":matrix_geo_to_base", CU + ":_dipole_to_unit", CU + ":dipole_to_vec", CU + ":basevectors_gsm", CU + ":basevectors_sm", CU + ":basevectors_mag", CU + ":basevectors_use"])

p("Arrays in design matrices",
  "design_gauss accepts arrays of any shapes that broadcast and returns matrices with the broadcast shape and one more axis; the row at every place is the row for the single point there, and the product with any coefficient vector is synth_values of the same arguments. Arrays that do not fit together and empty arrays of colatitudes raise ValueError. design_matrix accepts only four vectors of the same length (AssertionError otherwise) and returns the matrices of C25, one row per datum.",
  "all arrays of all shapes, all degrees, orders and sources",
  "every combination of shapes, degrees and orders",
  [MU + ":design_gauss", MU + ":design_matrix", MU + ":synth_values"])

p("Arrays in geodetic and spherical coordinates, zenith angles and local times",
  "gg_to_geo, geo_to_gg, basevectors_gg, zenith_angle, spherical_to_cartesian, cartesian_to_spherical, local_time and center_azimuth treat arrays element by element: arguments of shapes that broadcast give results of the broadcast shape whose value at each place is that of the call for this place alone, other shapes raise ValueError. gg_to_geo and zenith_angle never give NaN; geo_to_gg gives no NaN for points further than (a^2 - b^2)/b from the centre, whatever the other points of the array are. Components are rotated only if both are given. One time after 2099 makes zenith_angle raise AssertionError for the whole array.",
  "all arrays of all shapes, all ellipsoids with 0 < b <= a (a, b > 0 for gg_to_geo)",
  "every combination of shapes and every point, in particular where square roots and quotients of Heikkinen's algorithm are defined",
  [CU + ":gg_to_geo", CU + ":geo_to_gg", CU + ":basevectors_gg", CU + ":zenith_angle", CU + ":spherical_to_cartesian", CU + ":cartesian_to_spherical", CU + ":local_time", CU + ":center_azimuth"])

p("Arrays of times, date strings",
  "mjd2000, timestamp, is_leap_year, dyear_to_mjd and mjd_to_dyear treat arrays element by element: mjd2000 of eight arrays whose shapes broadcast gives the dates of all combinations and raises ValueError exactly if the shapes do not fit or one of the dates of (year, month, day) does not exist or has a year without four digits; the date strings it writes are read back by NumPy as the same year, month and day for all integers. dyear_to_mjd and mjd_to_dyear of arrays are inverse to each other for years from 1708 to 2292, timestamps of dates of instants are the instants. Arrays of datetime objects and datetime64 of any fixed unit have the dates of their components. Integer years in an array of objects are taken for nanoseconds since 1970.",
  "all arrays of all shapes of integers, times and datetimes",
  "every combination of shapes and every element, valid or not",
  [DU + ":mjd2000", DU + ":timestamp", DU + ":is_leap_year", DU + ":dyear_to_mjd", DU + ":mjd_to_dyear"])

p("Shc-files of any content",
  "load_shcfile reads a text of comments, a line of integers whose third is the number of times N, and then the times and rows in any layout: how the numbers are spread over lines, white space, comments anywhere and a missing last line end make no difference. Whatever the file contains, if the reader returns then every row has N coefficients and there are N times as soon as there is a row. A file of comments only raises UnboundLocalError, fewer than three numbers in the first line that is no comment (also a blank line) KeyError, otherwise ValueError exactly if the numbers after the times do not fill whole rows, a time is out of range or N is below -1. A word that is no number silently cuts its line; the labels n, m, the degrees in the parameter line and the number of rows are not compared; N = -1 is accepted.",
  "all texts, all layouts of the numbers, all parameter lines",
  "arbitrary texts",
  [DU + ":load_shcfile"])

p("Arrays in the transformation of expansions",
  "synth_rotate_gauss with times of any shape and frequencies and spectrum of shape (k, m, n) gives one matrix of shape (m, n) for every time, that of this time alone; for arbitrary shapes it succeeds exactly if the shapes broadcast and sums over the third axis from the end. A frequency vector of shape (k,), although documented, is accepted only if k = n or one of them is 1 and then runs along the wrong axis. rotate_gauss with base vectors of shape (..., 3) gives for every index the matrix of the base vectors at this index, raises AssertionError if the shapes differ and IndexError if there are fewer than three components; further components are ignored.",
  "all shapes of times, frequencies, spectra and base vectors, all values",
  "every combination of shapes and every element",
  [CU + ":synth_rotate_gauss", CU + ":rotate_gauss"])

p("Model files cut short",
  "load_gufm1_txtfile, load_CALS7K_txtfile and load_CovObs_txtfile, given the beginning of a valid file that ends at an arbitrary character, raise an exception, or return the model of the complete file with at most its very last coefficient wrong, or (if at most as many break points are left as the order) a model that is zero everywhere; the last case occurs without an exception for every file that ends after two to order break points. load_IGRF_txtfile raises, returns a model without coefficients, or returns exactly the model of a complete table with the first rows, where of the last of these rows at most the last number is wrong; every file that ends between two rows is accepted in this way.",
  "all files in the formats, all positions at which the file ends",
  "every file and every character at which it may end",
  [CH + ":load_gufm1_txtfile", CH + ":load_CALS7K_txtfile", CH + ":load_CovObs_txtfile", CH + ":load_IGRF_txtfile"])

p("RC-index files cut short or written in part",
  "load_RC_datfile, given the beginning of a valid file that ends at an arbitrary character, raises an exception or returns the rows of the first entries, possibly followed by one row of the next entry in which the last cell that is left may be wrong and the cells after it are NaN; nothing else changes. A file that ends within a time is accepted with the wrong time and NaN values, and the index that synth_coeffs_sm uses is then NaN in the whole interval of the table around this wrong time and as before in the other intervals; a row without value at the end gives NaN where the table would otherwise be refused as too short. After a crash of save_RC_h5file the index of the file is, for each source, that of the complete file or a KeyError is raised, and no other file changes.",
  "all files, all positions at which the file ends, all crash points, all times",
  "every file, every character at which it may end and every time",
  [DU + ":load_RC_datfile", DU + ":save_RC_h5file", CH + ":CHAOS.synth_coeffs_sm"])

p("Satellite names shared between loads",
  "If load_CHAOS_matfile is called any number of times with the same list as satellites, the list only grows: at the end it is the given list followed by generic names satellite_k numbered in order, and after a load that succeeds it has at least as many names as the file has satellites. Every file with Euler angles gives the model or exception that it gives with a fresh copy of the list. A file without Euler angles gives the same model up to the satellite names in its meta data, which are those that the calls before have left in the list. A file whose time-dependent, static or external part cannot be read raises an exception and leaves the list as it is.",
  "all lists of names, all sequences of calls and files",
  "every history of calls that share a list",
  [CH + ":load_CHAOS_matfile"])

p("Missing times and warnings of synth_coeffs",
  "synth_coeffs gives a row of NaN for each time that is NaN, and without NaN the rows of the other claims. If one of the times is NaN, the model interval is not checked: the call succeeds for every extrapolate, also unknown names, gives no warning, and other times outside the interval get the polynomial of the first or last piece even with extrapolate='off'. Otherwise there is exactly one warning about times outside if and only if some time is outside and the option is known, after the one for a dim that is too large, and the extrapolation it names is an option with the same result, except for integers that are negative or between 5 and the order of the model, for which the text is the literal order-{key} spline.",
  "all models, arrays of times with or without NaN, options",
  "depends on whether any of arbitrarily many times is NaN or outside",
  [CH + ":Base.synth_coeffs"])

p("Missing coordinates (NaN) in synth_values",
  "synth_values evaluates the points independently of each other: whatever coordinates or coefficients are NaN elsewhere, a complete point strictly between the poles gets the values of a call with that point alone, and so does a point at a pole if no colatitude is NaN. A NaN colatitude, radius, azimuth or coefficient in use makes the radial and colatitude components of its point NaN, and the azimuthal one too unless only order 0 is used or the coefficient is a zonal one; without orders above 0 the azimuth is not used and the azimuthal component is 0, and for the external field of degree 1 the radius is not used. One NaN among the colatitudes turns the check of all colatitudes off: the call succeeds for any other colatitudes if there are enough coefficients, a point with colatitude outside [0, 180], refused alone, gets the field of the point with the same azimuth and the colatitude in (0, 180) that has the same cosine, and a point at a pole gets a NaN azimuthal component.",
  "all coefficient vectors, points with any of the values NaN, degrees, orders and sources",
  "depends on whether any of arbitrarily many values is NaN",
  [MU + ":synth_values"])

p("Spline models in double precision",
  "Accuracy of Base.synth_coeffs with every operation rounded to double precision, however ties are resolved: for spline orders up to 16, derivatives up to the fifth, coefficients of absolute value up to 2^80 and break points within 2^23 days, a call that succeeds in exact arithmetic succeeds and returns the same shape, and at every time inside the model interval, whatever other times and extrapolation the call has, the result differs from the exact derivative (per year) of the polynomial of the piece by at most 2^-47 times the sum of the magnitudes of the terms plus 2^-400. At the beginning of a piece the value is exactly the constant coefficient of the piece. With constant extrapolation every time outside gets exactly the double returned for the nearer end, and derivatives there are exactly zero. With the default (linear) extrapolation, for orders from 2 on and times within 2^23 days, the value at a time outside differs from that of the tangent at the nearer end of the interval by at most 2^-46 times the sum of the magnitudes of the terms plus 2^-100, the first derivative differs likewise from the slope of the tangent per year, and higher derivatives are exactly zero.",
  "all models of these orders and sizes, lists of times, derivatives, extrapolations and rules for ties",
  "covers all doubles; a test compares some values with a tolerance",
  [CH + ":Base.synth_coeffs"])

p("shc-files in double precision",
  "save_shcfile and load_shcfile with doubles, decimal text and all conversions rounded, however ties are resolved: for dates within 106650 days of 2000 and any window of degrees, a saved model loads again with the same parameters, every time within 1.831e-6 days (0.16 seconds) and every coefficient within 5e-9 plus half the spacing of doubles of its size. If the coefficients are below 2^26, what was loaded is stable: saving the loaded times and coefficients and loading them again gives exactly the same doubles, so further cycles lose nothing, and with the same date and header (and no negative coefficient that rounds to zero) the second file is identical to the first, character for character. The default of the highest degree is the largest complete degree also in double precision.",
  "all lists of times, arrays of coefficients, windows, orders, headers, both calendars and all rules for ties",
  "covers all doubles and all file sizes; a test writes one file and compares with a tolerance",
  [DU + ":save_shcfile", DU + ":load_shcfile"])

p("Power spectra, degree correlations and sensitivities in double precision",
  "power_spectrum, degree_correlation and sensitivity of vectors of doubles with every operation rounded, however ties are resolved, in whatever order np.sum adds, and with a power function that is off by at most one unit in the last place, for degrees up to 2^20 and coefficients that are zero or of a size between 2^-200 and 2^200: an entry of the spectrum has a relative error of at most (4n+12) 2^-53 (so that it is never negative and exactly zero without power), a degree correlation an absolute error of at most (4n+9) 2^-53, a sensitivity a relative error of at most (n+7) 2^-53 (so that equal coefficients give exactly zero). The correlation of a model with itself is exactly 1 in every degree with power, and exchanging the models changes nothing, bit for bit. Degrees without power give NaN or signed infinities exactly where they do in exact arithmetic.",
  "all coefficient vectors, radii, sources, rules for ties and orders of summation",
  "the order of the additions depends on the version and the processor; tests compare with a tolerance on few vectors",
  [MU + ":power_spectrum", MU + ":degree_correlation", MU + ":sensitivity"])

p("Colatitudes at and near the poles in double precision",
  "legendre_poly with every operation rounded, however ties are resolved, for degrees up to 2^25 and every colatitude in [0, 180] degrees: every entry of the table is a number and the sine is in [0, 1], correct to 2^-46 in its square. With a correctly rounded cosine the Legendre functions at the two poles are exact and their derivatives (and the factors P/sin of the azimuthal component) are correct to half a unit in the last place. At the poles and at 6.1e-7 degrees (7 cm) or more from them all three components of synth_values are numbers, for all coefficients, radii, azimuths and sources. Between the pole and 6e-7 degrees the azimuthal component, and every entry of A_phi of design_gauss with order 1 or more, is NaN although the point is not treated as a pole and no warning about poles is given, while the other two components are those at the pole.",
  "all degrees, colatitudes, coefficients, azimuths, radii, both sources and all rules for ties",
  "the loss occurs in a range of angles so narrow that tests do not meet it; exactness at the poles is for all degrees",
  [MU + ":legendre_poly", MU + ":synth_values", MU + ":design_gauss"])

p("Accuracy of the Legendre functions in double precision",
  "legendre_poly with every operation rounded, however ties are resolved, for maximum degrees up to 250 and colatitudes in [0, 180] degrees with a sine of at least 2^-20: the value computed for degree n and order m differs from the Schmidt semi-normalised associated Legendre function by at most n 2^-44 (5/2)^n / sin(theta), and the value computed for the derivative with respect to the colatitude differs from the exact derivative by at most n (n+1) 2^-42 (5/2)^n / sin(theta). In particular no entry is NaN, and errors at low degrees do not depend on the maximum degree.",
  "all maximum degrees up to 250, degrees, orders, colatitudes and rules for ties",
  "rounding errors of a recursion can grow without limit at some colatitude or order that no test samples",
  [MU + ":legendre_poly"])

p("Accuracy of the magnetic field in double precision",
  "synth_values with every operation rounded, however ties are resolved, for degrees 1 <= nmin <= nmax <= 250, any maximum order, coefficients up to 2^60 in size, radii from a quarter to four times the reference radius, colatitudes with a sine of at least 2^-13 and azimuths from -360 to 360 degrees: the three components are numbers and each differs from the component of minus the gradient of the potential by at most nmax^2 2^-40 / sin(theta)^3 times the sum over all degrees and orders of (n+1) (5/2)^n R_n (|g| + |h| + 2^-300), with R_n = (a/r)^(n+2) for internal and (r/a)^(n-1) for external sources.",
  "all degrees, coefficients, points in the stated ranges, both sources and all rules for ties",
  "an error bound is a statement about all points and coefficients; cancellation can occur anywhere",
  [MU + ":synth_values"])

p("Accuracy of the design matrices in double precision",
  "design_gauss with every operation rounded, however ties are resolved, for degrees 1 <= nmin <= nmax <= 250, any maximum order, radii from a quarter to four times the reference radius, colatitudes with a sine of at least 2^-13 and azimuths from -360 to 360 degrees: every entry is a number, and the entry of coefficient k in each of the three matrices differs from the component of minus the gradient of the potential of the model with coefficient k one and all others zero by at most n 2^-40 / sin(theta)^3 (n+1) (5/2)^n R_n, with n the degree of the coefficient and R_n = (a/r)^(n+2) for internal and (r/a)^(n-1) for external sources.",
  "all degrees, columns, points in the stated ranges, both sources and all rules for ties",
  "an error bound is a statement about all points and columns; tests compare a few entries with a tolerance",
  [MU + ":design_gauss"])

p("Zenith angles in double precision",
  "zenith_angle with every operation rounded, however ties are resolved, for every position of the sun and every point with colatitudes and longitudes up to 360 degrees in size: the result is NaN only if the sun is within 2^-15 degrees of the zenith or of the nadir, and otherwise differs from the angle zeta between the directions of the point and of the sun by at most 2^-15 degrees and by at most 2^-37 / sin(zeta) degrees.",
  "all positions of the sun and of the point in the stated ranges and all rules for ties",
  "the loss of accuracy of the inverse cosine, and NaN, occur only at special points that tests do not sample",
  ["chaosmagpy/coordinate_utils.py:zenith_angle"])

p("Spherical and cartesian coordinates in double precision",
  "spherical_to_cartesian and cartesian_to_spherical with every operation rounded, however ties are resolved, for radii from 2^-100 to 2^100 and angles up to 360 degrees in size: each cartesian coordinate is within 2^-47 radius of the exact one; going to cartesian coordinates and back recovers the radius to a relative error of 2^-44 and colatitudes in [0, 180] to 2^-36 degrees, at the poles as well, and, for colatitudes with a sine of at least 2^-40, the longitude to 2^-36 degrees modulo 360 (without modulo if it is more than 2^-30 degrees from the date line).",
  "all radii and angles in the stated ranges and all rules for ties",
  "an accuracy over all points, with extreme radii and next to the poles and the date line, is beyond samples",
  ["chaosmagpy/coordinate_utils.py:spherical_to_cartesian", "chaosmagpy/coordinate_utils.py:cartesian_to_spherical"])

p("Azimuths and local times in double precision",
  "center_azimuth with every operation rounded, however ties are resolved, for every double: the result is in (-180, 180], differs from the argument by a multiple of 360 up to 2^-45 degrees, exactly for arguments that are not negative, and is not changed by a second application. Negative azimuths that are already in the interval can change: those between -2^-46 and 0 become 0. local_time for times up to 2^20 days and azimuths up to 360 degrees in size is in [0, 24] and correct modulo 24 hours to 2^-28 hours; the documented range [0, 24) is not met: at time 0, for azimuths between -2^-50 and -2^-900, it is 24.",
  "all doubles, times and azimuths in the stated ranges and all rules for ties",
  "the exceptional results occur for tiny negative numbers only; exactness is a statement about all doubles",
  ["chaosmagpy/coordinate_utils.py:center_azimuth", "chaosmagpy/coordinate_utils.py:local_time"])

p("Geodetic coordinates in double precision: where NaN appears",
  "geo_to_gg with every operation rounded, for the default ellipsoid and the point above the north pole: at the radius 6371.2 km (the default reference radius, with ties to even) and at 6771.2 km (with every rule for ties) the radicand of r0 is rounded to a negative number and height and colatitude are NaN, although the point has geodetic coordinates (height 14.448 and 414.448 km, colatitude 0); 100 km higher the height is a number, correct to 1e-11 km. For every point at radii from 100 to 50000 km that is at least 1.001 km away from the axis height and colatitude are numbers. For every input, ellipsoid and platform function: where the height is a number, so is the colatitude.",
  "all roundings to nearest (and those with ties to even), all values of the platform functions that are exact at 0 and 1; for the last part all doubles",
  "whether NaN appears depends on the last bit of intermediate results and on the rule for ties",
  ["chaosmagpy/coordinate_utils.py:geo_to_gg"])

p("Accuracy of geodetic coordinates in double precision",
  "geo_to_gg with every operation rounded, for the default ellipsoid and every point at radii from 6000 to 50000 km at least 50.001 km away from the axis: the returned height and colatitude are numbers, and the point they describe on that ellipsoid is within 1e-7 km (0.1 mm) of the given point, both along the axis and away from it.",
  "all radii from 6000 to 50000 km and colatitudes from 0 to 180 degrees in that region (real numbers, thus all doubles), all roundings to nearest, all sines, cosines, arctangents, cubes and cube roots within a few units in the last place",
  "the radicand of r0 loses nine digits to cancellation near the axis; the bound concerns every point, not samples",
  ["chaosmagpy/coordinate_utils.py:geo_to_gg"])

p("Geocentric coordinates from geodetic ones in double precision, and the round trip",
  "gg_to_geo with every operation rounded, for the default ellipsoid and every height from -500 to 45000 km and colatitude from 0 to 180 degrees, the poles included: the returned radius and colatitude are numbers, and the point they describe is within 1e-8 km (0.01 mm) of the given point, both along the axis and away from it. Applied to the output of geo_to_gg, for every point at radii from 6000 to 50000 km at least 50.001 km away from the axis, it returns the radius to 3e-7 km and the colatitude to 1e-8 degrees.",
  "all heights and colatitudes in those ranges (real numbers, thus all doubles), all roundings to nearest, all sines, cosines, tangents, arctangents, powers and cube roots within a few units in the last place",
  "the tangent is as large as 1e16 near the poles and its error is not bounded; the result still is accurate at every point, which samples cannot show",
  ["chaosmagpy/coordinate_utils.py:gg_to_geo", "chaosmagpy/coordinate_utils.py:geo_to_gg"])

p("Vector components of the geodetic transformations in double precision",
  "geo_to_gg and gg_to_geo with vector components, every operation rounded: where the colatitude is a number, so are the components, and the vector with the returned components at the returned colatitude is the given one to 2e-14 times its largest component. For the default ellipsoid and every point at radii from 6000 to 50000 km at least 50.001 km away from the axis, geo_to_gg followed by gg_to_geo returns both components to 1e-9 times the largest one. Where geo_to_gg returns NaN for the coordinates (north pole, radius 6371.2 km), the components are NaN.",
  "all colatitudes that differ by at most 181 degrees, all components up to 2^90 (not all below 2^-90), all roundings to nearest, all sines and cosines within 2^-52; for the round trip all points in the stated region",
  "the errors of eight roundings and of the difference of two angles add up differently at each point",
  ["chaosmagpy/coordinate_utils.py:geo_to_gg", "chaosmagpy/coordinate_utils.py:gg_to_geo", "chaosmagpy/coordinate_utils.py:basevectors_gg"])

p("Sun position and zenith angle in double precision",
  "sun_position with every operation rounded returns numbers for every time within a century of 2000-01-01: a colatitude from 30 to 150 degrees, an azimuth in (-180, 180], and the unit vector with these angles is, in every component, the direction to the sun given by the exact formulas (mean longitude, anomaly, equation of centre, aberration, obliquity, sidereal time) to 1e-10. The cosine of the angle returned by zenith_angle is the scalar product of that direction with the direction of the point to 4e-10, and the angle is NaN only within 4e-10 (in the cosine) of the points below the sun and opposite to it.",
  "all doubles with absolute value up to 36525 as time, all angles up to 360 degrees of the point, all roundings to nearest, all sines, cosines, tangents, arctangents and arccosines within the stated errors",
  "the two reductions of large angles modulo 360, the division by the cosine of the declination and the quadrant of the right ascension lose different digits at every time, and the result jumps by 360 degrees where the azimuth wraps",
  ["chaosmagpy/coordinate_utils.py:sun_position", "chaosmagpy/coordinate_utils.py:zenith_angle", "chaosmagpy/coordinate_utils.py:center_azimuth"])

p("Base vectors of GSM, SM and MAG in double precision",
  "basevectors_gsm, basevectors_sm and basevectors_mag with every operation rounded: for a dipole whose axis is within 25 degrees of the rotation axis all components are numbers at every time within a century of 2000; the base is orthonormal and right-handed to 2e-12 (MAG: 1e-10, if the axis is at least 0.6 degrees away from the rotation axis) and equals the base of the exact formulas to 2e-8: GSM has the sun on the first axis and the dipole axis in the plane of the first and third, SM has the dipole axis as third vector and the sun in the plane of the first and third, MAG has the second vector orthogonal to the rotation axis. The unit vector of a dipole given by coefficients or by the position of its pole is exact to 1e-14.",
  "all times that are doubles up to 36525, all dipole coefficients with a norm from 2^-90 to 2^90 or pole positions up to 360 degrees, all orders of summation in the norm, all roundings to nearest, all platform functions within the stated errors",
  "the normalised vector product loses digits depending on the angle between sun and dipole, which changes with time and date, and tests sample a few dates",
  ["chaosmagpy/coordinate_utils.py:basevectors_gsm", "chaosmagpy/coordinate_utils.py:basevectors_sm", "chaosmagpy/coordinate_utils.py:basevectors_mag", "chaosmagpy/coordinate_utils.py:dipole_to_vec", "chaosmagpy/coordinate_utils.py:_dipole_to_unit"])

p("transform_points in double precision",
  "geo_to_base with every operation rounded: for base vectors within eta of a right-handed frame it returns numbers, a colatitude in [0, 180] and an azimuth in [-180, 180] up to 1e-11, and the direction with these angles has the components of the point in that frame to 140 eta; with inverse=True the opposite. transform_points to GSM or SM followed by the inverse returns the direction of the point to 2e-9 for every point (poles included), every time within a century of 2000 and every dipole within 25 degrees of the rotation axis (MAG: 6e-8, axis at least 0.6 degrees away from the rotation axis); the result agrees with the frame of the exact formulas to 3e-6.",
  "all points up to 360 degrees, all times that are doubles up to 36525, all dipole coefficients as in C103, all roundings to nearest, all platform functions within the stated errors",
  "near the poles of either system the angles themselves are ill-conditioned, so that tests comparing angles need to avoid them; the directions are accurate everywhere",
  ["chaosmagpy/coordinate_utils.py:geo_to_base", "chaosmagpy/coordinate_utils.py:transform_points", "chaosmagpy/coordinate_utils.py:spherical_to_cartesian", "chaosmagpy/coordinate_utils.py:cartesian_to_spherical"])

p("transform_vectors in double precision",
  "matrix_geo_to_base and transform_vectors with every operation rounded: a ValueError is raised exactly if the point or the transformed point passes the test for a pole (0 and 180 degrees do, and only points within 1.5e-6 radians of the axis); otherwise all results are numbers, the angles are those of transform_points and, for base vectors within eta of a right-handed frame and horizontal components up to M, the vector with the returned components at the returned point has the components of the given vector in that frame to 1000 eta M (with inverse=True the opposite). To GSM or SM and back returns the point to 2e-9 and the vector to 2e-8 M (MAG: 6e-8 and 1e-6 M), for every point at least 1.2 degrees away from both axes, every time within a century of 2000 and every dipole as in C104; with respect to the exact formulas the error is at most 2e-5 M.",
  "all points up to 360 degrees, all horizontal vectors with components up to M (2^-100 to 2^90), all times and dipole coefficients as in C104, all orders of summation of np.matmul with an error up to 2e-14, all roundings to nearest, all platform functions within the stated errors",
  "the local frames turn rapidly near the poles of either system, so that components have to be compared as vectors and not one by one; tests use a few points with a tolerance",
  ["chaosmagpy/coordinate_utils.py:transform_vectors", "chaosmagpy/coordinate_utils.py:matrix_geo_to_base", "chaosmagpy/coordinate_utils.py:basevectors_use"])

p("synth_values of a spline model in double precision",
  "The components returned by synth_values of a spline model at one time and point, with every operation of the spline evaluation and of the expansion rounded, are numbers and differ from minus the gradient of the potential whose coefficients are the exact values (or derivatives, per year) of the splines at that time by at most three times the bound of C93 for the sizes of the terms of the splines. For a time outside the model's span and the default extrapolation the same holds with the exact linear continuation of the splines from the nearest end (and, for the first derivative, with the rates there); with extrapolate='off' all components are NaN there, with 'constant' they are exactly those at the nearest end.",
  "all spline models with complete degrees, of order up to 16 with coefficients up to 2^80 and break points up to 2^23 days, all degrees up to 250 (with or without truncation), all derivatives up to 5, all times inside (or outside, with the default option), all points as in C93, internal and external sources, all roundings to nearest, all platform functions within the stated errors",
  "the errors of two algorithms are combined, and each depends on the size of terms that cancel; tests compare a few values with stored ones",
  ["chaosmagpy/chaos.py:BaseModel.synth_values", "chaosmagpy/chaos.py:Base.synth_coeffs", "chaosmagpy/model_utils.py:synth_values"])

p("power_spectrum of a spline model in double precision",
  "The values returned by power_spectrum of a spline model at one time inside its span, with every operation of the spline evaluation and of the spectrum rounded, are numbers, one per degree, and differ from the documented power of the exact values (or derivatives) of the splines by a relative error of at most (4n+12) 2^-52 + 3 K 2^-46, where K bounds the cancellation in the splines (the sum of the sizes of the terms relative to the value); coefficients may vanish identically. Without a radius it is the spectrum at the reference radius. With extrapolate='constant' the spectrum outside is exactly that at the nearest end.",
  "all spline models with complete degrees up to 2^20, of order up to 16 with coefficients up to 2^80, all times inside, derivatives up to 5, truncations, radii, the three sources, all orders of summation, all power functions with an error of one unit in the last place, all roundings to nearest",
  "the relative accuracy depends on the cancellation in two algorithms and on the order in which NumPy adds; tests compare a few values with stored ones",
  ["chaosmagpy/chaos.py:BaseModel.power_spectrum", "chaosmagpy/chaos.py:BaseModel.synth_coeffs", "chaosmagpy/model_utils.py:power_spectrum"])

out = os.path.join(os.path.dirname(os.path.abspath(__file__)), "..", "properties.jsonl")
with open(out, "w") as f:
    for q in P:
        f.write(json.dumps(q) + "\n")
print(len(P))
