# Formal model of ChaosMagPy in Lean 4

Layout of `/verif/lean/Verif/`:

| directory | content |
|---|---|
| `Model/`  | models of the Python functions; every definition cites file and lines of `/repo` |
| `Spec/`   | small independent specification vocabulary (calendar, Schmidt functions, potential, induction equation, ...) |
| `Lemmas/` | helper lemmas |
| `Props/`  | the property theorems `Cnn_...`, with `example`s that show that their hypotheses are met |
| `Examples/` | for every other theorem of `Props/`, a concrete case to which it applies |

`properties.jsonl` is generated by `tools/props.py`, `MANIFEST.json` by `tools/manifest.py` (names of all
theorems `Cnn_...` and the notes in `tools/notes.json`). `seeded/LOG.jsonl` is the log of the edits of the
model that were tried against the theorems.

Conventions: Python loops are folds or structural recursions that carry the same running variables
(counters, running powers, the table that is filled in place); exceptions are values (`Except`) with the
Python exception type; `None` is `Option.none`; NaN, where it is a documented result, is `Option.none` too.
Array arguments are lists of points or times where only the order matters, and real arrays with shapes,
axes and broadcasting (`Model/NumPy`) in the properties about arrays (C61, C62, C66-C68).

## Trusted base

* Lean's kernel (4.33.0) and the axioms `propext`, `Classical.choice`, `Quot.sound` (printed for each
  theorem by `vcheck`); no own axioms, no compiled evaluation.
* The reading of the code: the only tie between `/repo` and the model are the citations.
* **Numbers**: IEEE floating point is replaced by exact arithmetic (`ℝ`, `ℂ`, `ℚ` or an arbitrary linearly
  ordered field). Rounding, overflow and NaN propagation are not modelled, except where NaN is the
  documented result. 64-bit wrap-around *is* modelled for `datetime64[ns]` (C08, C11). C70, C71, C88, C89, C90–C107 and the `_float`
  theorems of C12 use double precision (`Spec/Float`): every operation returns a double nearest to the exact
  result, ties resolved in any way (NaN, infinities, overflow, the sign of zero excluded).
* **Libraries, by specification** (small definitions from their documentation):

| library | modelled as |
|---|---|
| NumPy arrays | shape and function of the index; broadcasting, new axes, `swapaxes`, C-order `reshape`, `ravel`, `np.where`, boolean masks, `np.unique`, `np.interp`-like `interp1d` |
| `np.sum` of doubles (C90) | any way of adding the numbers two at a time, each sum rounded |
| `np.cos`, `np.sin` of doubles (C91–C96) | any function with values in [-1, 1] that are doubles within 2^-52 of the cosine (sine); correctly rounded where stated |
| `np.radians`, `np.degrees` of doubles (C91–C96) | the rounded product with the double next to `π/180`, `180/π` |
| `np.arccos`, `np.arctan2` of doubles (C95, C96) | any function with doubles within 2^-51 of the exact value |
| `pow` of doubles (C90, C93, C94) | any function with a relative error of at most 2^-52 |
| `np.fft` | the DFT sum; `fftshift`/sorting as permutations (C44, C63) |
| `np.polynomial.legendre.leggauss` | any rule that is exact for polynomials of degree `2n-1` (existence of such a rule is proved: `Legendre.gaussRule_exists`) |
| `datetime64` | 64-bit nanoseconds, ISO parser, NumPy's day count |
| SciPy `PPoly` | interval search, evaluation in powers of the distance to the left break point, `derivative`, `extend` |
| SciPy `BSpline`, `make_lsq_spline`, `PPoly.from_spline` | Cox-de Boor recursion; the least squares problem (any minimiser); Taylor coefficients at the break points |
| hdf5storage / scipy `savemat`, `h5py`, `pandas.read_csv` | nested dictionaries of arrays; the treatment of one-dimensional arrays and of `None` is a parameter (`keep`, `noneArr`) |
| CPython | `dict` order, `setdefault`, `str.format`, `str.split`, `float()` and `int()` of decimal strings, regular expression search, `@contextmanager`, references to mutable arrays (`Model/ConfigHeap`) |
| Matplotlib | the data, places, titles, labels and limits handed to `plot` and `pcolormesh` |

## Modelled functions

| file | functions | model |
|---|---|---|
| `config_utils.py` | all validators, `BasicConfig` (`__setitem__`, `reset`, `fullreset`, `load`, `save`, `context`) | `Config`; with array references `ConfigHeap` |
| `data_utils.py` | `mjd2000`, `timestamp`, `is_leap_year`, `dyear_to_mjd`, `mjd_to_dyear` | `Time`; in double precision `FloatTime` |
| | the same for arrays, date strings | `TimeArr` on `NumPy` |
| | `save_shcfile`, `load_shcfile` (characters) | `Shc` |
| | `save_shcfile`, `load_shcfile` in double precision | `FloatShc` |
| | `load_matfile` (structure) | `Matfile` |
| `config_utils.py` | `BasicConfig.save`, `BasicConfig.load` as characters (`json.dump` with indent and sorted keys, `json.load`) | `ConfigText` |
| `config_utils.py` | `BasicConfig.context`, `__setitem__`, `load` in concurrent threads, step by step | `ConfigThreads` |
| `chaos.py` | `Base.__init__`, `to_ppdict`, `synth_coeffs`, internal part of `CHAOS.__init__` with the identity of arrays and views | `ModelHeap` |
| | `load_RC_datfile` (characters, without `parse_dates` and downloads), `save_RC_h5file` (datasets) | `RcFile` |
| | `load_RC_datfile` with missing cells, interpolation of the RC-index with NaN, crash of `save_RC_h5file` | `RcCut` |
| | `gauss_units` | `Plot` |
| `model_utils.py` | `legendre_poly` | `Legendre` |
| | `legendre_poly`, the loops of `synth_values`, `design_gauss` in double precision | `FloatLegendre`, `FloatDesign` |
| | `synth_values`, `design_gauss` (points); `synth_values` (arrays) | `Synth`; `SynthArr` |
| | `synth_values` with NaN | `SynthNan` |
| | `design_gauss`, `design_matrix` (arrays) | `DesignArr` on `NumPy` |
| | `colloc_matrix`, `augment_breaks`, `pp_from_bspline`, `design_matrix` | `BSpline` |
| | `synth_from_pp`, `power_spectrum` (arrays) | `SynthPP` |
| | `power_spectrum`, `degree_correlation`, `sensitivity` | `Spectrum` |
| | `power_spectrum`, `degree_correlation`, `sensitivity` in double precision | `FloatSpectrum` |
| `coordinate_utils.py` | dipoles, `igrf_dipole`, base vectors, `geo_to_base`, `matrix_geo_to_base`, `transform_points`, `transform_vectors`, spherical/cartesian, geodetic, `center_azimuth`, `local_time`, `sun_position`, `zenith_angle` | `Coord`; `center_azimuth`, `local_time` in double precision `FloatTime` |
| | the same functions from `_dipole_to_unit` to `transform_vectors` for arrays of any shape | `CoordArr` on `NumPy` |
| | `gg_to_geo`, `geo_to_gg`, `basevectors_gg`, `zenith_angle`, `spherical_to_cartesian`, `cartesian_to_spherical`, `local_time`, `center_azimuth` (arrays, NaN) | `ElemArr` on `NumPy` |
| | `zenith_angle`, `spherical_to_cartesian`, `cartesian_to_spherical` in double precision | `FloatCoord` |
| | `center_azimuth`, `local_time` in double precision | `FloatAzimuth` |
| | `geo_to_gg` in double precision (poles, NaN, accuracy) | `FloatGeod`, `FloatGeodSteps`, `FloatGeodNear`, `FloatGeodAcc`, `FloatGeodOut` |
| | `gg_to_geo` in double precision (accuracy, round trip) | `FloatGgToGeo` |
| | vector components of `geo_to_gg`, `gg_to_geo`; `basevectors_gg` in double precision | `FloatGgVector` |
| | `sun_position`, `zenith_angle` in double precision | `FloatSun` |
| | `_dipole_to_unit`, `basevectors_gsm`, `basevectors_sm`, `basevectors_mag` in double precision | `FloatBase` |
| | `geo_to_base`, `transform_points` in double precision | `FloatTransform` |
| | `basevectors_use`, `matrix_geo_to_base`, `transform_vectors` in double precision | `FloatVectors` |
| | `BaseModel.synth_values` in double precision | `FloatModel` |
| | `BaseModel.power_spectrum` in double precision | `FloatModel` |
| | `synth_rotate_gauss` | `Fourier` |
| | `synth_rotate_gauss`, `rotate_gauss` (arrays) | `RotateArr` on `NumPy` |
| | `sh_analysis`, `rotate_gauss` | `Analysis` |
| | `rotate_gauss_fft` | `RotateFft` |
| | `q_response_1D`, `q_response` | `QResponse` |
| `chaos.py` | `Base`, `BaseModel` (`synth_coeffs`, `synth_values`, `power_spectrum`, `to_ppdict`, `from_bspline`) | `PPoly`, `BSpline`, `Chaos`, `SynthPP` |
| | `Base.synth_coeffs` with NaN, its warnings | `SynthWarn` |
| | `Base.synth_coeffs` in double precision | `FloatPP` |
| | `BaseModel.to_shc`, `from_shc` | `ShcModel` |
| | `CHAOS.__init__`, `__call__`, `synth_coeffs_*`, `synth_values_*` | `Chaos` (points), `ChaosArr` (arrays) |
| | `CHAOS.save_matfile`, `load_CHAOS_matfile`, `synth_euler_angles` | `Matfile` |
| | the list of satellite names of the caller after `load_CHAOS_matfile` | `MatfileShared` |
| | the single writes of `CHAOS.save_matfile`, `Base.save_matfile` with the default path | `MatfileSteps` |
| | `CHAOS.save_shcfile`, `load_CHAOS_shcfile` | `ChaosShc` |
| | `load_IGRF_txtfile` (characters) | `Igrf` |
| | `load_CovObs_txtfile`, `load_gufm1_txtfile`, `load_CALS7K_txtfile` | `SplineText` (characters), `BSpline` (numbers) |
| | all `plot_*` methods | `Plot` |
| `plot_utils.py` | `plot_maps`, `plot_timeseries`, `plot_power_spectrum`, `defaultkeys` | `Plot`, `Keywords` |

**Not modelled**: the binary file formats themselves, web downloads, `print` and `warnings` output, `__str__`
methods, `memory_usage`, `fmt`, `nio_colormap`, the appearance of figures, performance.
`CHAOS.from_mat` and `CHAOS.from_shc` only call the loaders.

## Plan per property

| id | model | proof idea |
|---|---|---|
| C01-C06 | `Config`: dictionary with validators, programs with nested contexts and exceptions | invariant by induction over programs; refinement of `load`; regular expression search vs. substring |
| C07-C11 | `Time`: calendar day count, 64-bit nanoseconds, decimal years over `ℝ` | arithmetic, monotonicity by year induction, inverse by uniqueness of the year |
| C12 | index formulas | injectivity/surjectivity |
| C13 | `Shc`: printing and parsing of lines and numbers at character level | print/parse round trip by induction |
| C14-C15 | `Legendre`: the in-place table as a fold of writes | invariant of the fold = recursion; recursion = closed form with derivatives of Legendre polynomials |
| C16-C22 | `Synth`: loops with running `num`, `r_n` | loop invariants; `HasDerivAt` of the potential in `Spec/Harmonics` |
| C23-C25, C51, C53 | `BSpline`, `SplineText` | Cox-de Boor induction, uniqueness of polynomial pieces; words of joined lines |
| C26-C31 | `PPoly`, `ShcModel` | interval search lemmas, polynomial evaluation, unique minimiser of the least squares problem |
| C32-C35, C55, C56 | `Chaos`: files given by content, fields as lists of optional vectors | case analysis, linearity of sums, closed forms point by point, reuse of C16, C20, C26-C28 |
| C36-C43, C54 | `Coord` over `ℝ` | vector algebra, trigonometric identities |
| C44, C63 | `Fourier`, `RotateFft` | discrete orthogonality, permutation sums, composition with C57 |
| C45, C57 | `Analysis` | exact quadrature of products of harmonics; harmonics of rotated systems are combinations of harmonics of the same degree |
| C46 | `QResponse` | Riccati/Moebius composition of layers = regular solutions of the induction equation (`Spec/Induction`) |
| C47-C49, C66 | `Spectrum`, `SynthPP` | finite sums, Cauchy-Schwarz, mean square over the sphere (integrals) |
| C50, C52 | `Igrf`, `Keywords` | reading loop invariant; dictionary induction |
| C58-C60 | `Matfile`, `ChaosShc` | inversion of the save/load chain, array layouts |
| C61, C62 | `SynthArr`, `ChaosArr` | broadcasting lemmas, array result = list of point results |
| C64 | `ConfigHeap`: store of arrays with references | simulation with the reference-free model; separation invariants |
| C65 | `SynthPP` | reduction to C26/C56 |
| C67, C68 | `Plot` | loop invariants; grid calls by C62 |
| C69 | `QResponse` (`kind='constant'`) | power series solutions of the radial equation, finite sums for large arguments, Wronskian, transport through a layer, induction over the stack; the divisor is kept away from zero by bounds of the series |
| C70, C71 | `FloatTime` | rounding is monotone and exact on doubles, error bounds, multiples of the spacing; the accumulated error stays below half a spacing |
| C72 | `RcFile`: files by path, text as characters, HDF5 as named datasets | reading of words and numbers as in C50; fold over the columns |
| C73 | `ConfigText`: printer and parser of JSON; `Shc`: writer and reader | a parser that succeeds on a beginning succeeds on the whole text with a rest (induction on the nesting), against the round trip; shc: folds over lines that are equal except for the last |
| C74 | `ConfigThreads`: small steps of tasks, schedules as lists of thread names | small steps of one thread = big-step `exec`; invariant over schedules: each thread sees on its keys what it sees alone |
| C75 | `ModelHeap`: blocks of memory, views, programs of operations | every operation only adds, or writes one element; addresses that only a model refers to stay private; views of float arguments persist |
| C76 | `MatfileSteps`: the list of writes of a model, a prefix of it for a crash | the file after any writes is known by its lookups; loading depends only on six variables and four fields, and is monotone in them |
| C77 | `CoordArr`: arrays with broadcasting, `np.stack`, `np.cross`, `np.matmul`, assignments to components, NaN | a calculus of array expressions: shape is the least one that all shapes fit into, entries are the pointwise formula; then each step of the function |
| C78 | `DesignArr`: the loops with assignments to `A[..., num]`, slices of columns | simulation: the vectorised loops do at every index what the loops for one point do; the rows of the matrices one by one |
| C79 | `ElemArr`: array expressions with NaN | the least shape into which all arguments fit; definedness of every root and quotient from the factorisation of Heikkinen's quartic |
| C80 | `TimeArr`: array expressions, date strings as characters | the parser is run on the written characters by cases on the number of digits; a calculus of array expressions that may raise ValueError |
| C81 | `Shc.loadShc` | the reading loop over arbitrary lines, the specification collects the numbers of the lines; outcomes by cases on N |
| C82 | `RotateArr`: array expressions with new axes, `np.where`, sum over an axis; the loop over `np.ndindex` | broadcasting with three new axes; the list of matrices by index |
| C83 | `SplineText`, `BSpline.loadSpline`, `Igrf` (as for C50, C51) on prefixes | words and lines of a prefix; case analysis on the numbers left |
| C84 | `RcCut`: rows with missing cells, stable sort, `np.interp` with NaN, first writes of `save_RC_h5file` | lines and words of a prefix as in C83; the place of a further point in a sorted list |
| C85 | `MatfileShared`: `listAfter`, calls one after the other | induction on the calls with the invariant "given list and generic names"; the adjusted names do not depend on how many generic names are in the list |
| C86 | `SynthWarn`: minimum and maximum with NaN, `dkey`, `rev_dkey`, warnings in order | NaN absorbs the minimum and maximum; the call depends on the option only through the order |
| C87 | `SynthNan`: `synth_values` over reals with NaN | the run without NaN is the run of `Synth` (lifting of the loops); NaN in a sum stays (invariant with position in the coefficient vector); two runs side by side |
| C88 | `FloatPP`: `synth_coeffs` with every operation rounded | running error bounds: value, sum of magnitudes and bound are carried through the loop together (`Lemmas/Near`) |
| C89 | `FloatShc`: reader and writer of `Shc` with rounded numbers | the lines of the file as in C13; reading gives the rounded exact numbers (`foldF`); a double next to a number with eight decimals below 2^26 rounds back to it; times by C70 |
| C90 | `FloatSpectrum`: the functions of `Spectrum` with rounded operations, any order of summation, any accurate power | number of roundings as exponent of a multiplicative error (`Rel`), induction over the way of summation (`added_err`, `added_rel`), Cauchy-Schwarz, sqrt(x*x) = x for doubles (`sqrt_sq`) |
| C91 | `FloatLegendre`: the assignments of `Legendre.program` and the loops of `synth_values` for one point with rounded operations; `none` is NaN | error of `np.radians` and of the sine (`radians_err`, `sine_sq_err`, `sine_pos`), cosines that round to one (`cos_one`), single assignment (`runF_ssa`), induction over the degree at the poles (`finF_pole_zonal`), NaN propagates through the loops (`field_none`) |
| C92 | `FloatLegendre.legendrePolyF` | the recursions with absolute values of all terms are bounded by (5/2)^n (`Majorant`); each operation multiplies the distance to the exact value by at most 1 + eps relative to the majorant (`Grow`, `FloatAccuracy`); errors of the cosine and of `sqrt(1 - cos^2)` (`FloatAngles`) |
| C93 | `FloatLegendre.synthPoint` | the calculus of C92 for every assignment of the three loops with the coefficient counter as invariant (`FloatField`), gradient by `field_gradient` of C18 |
| C94 | `FloatLegendre.designPointF` | the calculus of C92 for every assignment; invariant of the two loops: all columns filled so far are near the exact entries and later columns are not touched (`Acc.dall`); an entry is the field of a unit model (`unit_field`), gradient by `field_gradient` of C18 |
| C95 | `FloatCoord.zenithAngle` | errors of the scalar product of the directions (`cosZeta_err`); angles in [0, pi] whose cosines are close (`angle_of_cos`, both a quadratic and a linear bound) |
| C96 | `FloatCoord.sphericalToCartesian`, `cartesianToSpherical` | relative errors with underflow of sums of squares and their roots (`sum2`, `sum3`, `root_err`); direction of a vector near a given one (`angle_close`); the sine of the colatitude cancels in the longitude (`azimuth_component`) |
| C97 | `FloatAzimuth` | exactness of fmod and of the subtraction of 360 (`fmod_double`, `sub_360`), monotonicity of rounding |
| C98 | `FloatGeod` | exact evaluation of every operation (`rnd_val`, `rnd_root`), case analysis on NaN; relative errors with ranges of all operations (`Near`), with the exact radicand bounded below by the foot point of C39 (`radicand_ge`) |
| C99 | `FloatGeod` | `radicand_strong` (relative errors, `Near`), then absolute errors step by step (`r0_err`, `out_err`), compared with the exact foot point of `geodetic_exists`/`heikkinen_root`; `angle_close` for the latitude, `prime_lip` for the position |
| C100 | `FloatGgToGeo` | the argument of the tangent is at most the double below pi/2 (`radians_half_pi`), so both arguments of `arctan2`, multiplied by the cosine, are close to the exact position times a length (`direction_err`); radius by absolute errors (`radius_err`); `angle_close` for the colatitude; round trip from C99 and `polar_close` |
| C101 | `FloatGgVector` | rounded sums of rounded products (`comb_err`), sine and cosine of the rounded difference (`base_err`); rotation identities; round trip from C99 and C100 |
| C102 | `FloatSun` | error analysis phase by phase: the two reductions modulo 360 up to whole turns, the quotients (`quotients`), the angle of a vector next to a unit vector (`unit_angle`), then the direction component by component |
| C103 | `FloatBase` | relative error of the norm for any order of summation, errors of vector products and quotients next to the exact frame of two directions (`FloatFrame`) |
| C104 | `FloatTransform` | rounded rows (`row_err`), distance from the axis without relative error only where it is tiny (`hypot_err`), direction of the returned angles (`spherical_direction`), orthonormality for the way back |
| C105 | `FloatVectors` | entries of the product of three matrices (`entry_err`), rounded components (`component_err`), the radial part of the rotated vector is small by C104 (`local_vector`) |
| C106 | `FloatModel` | composition of C88 and C93: the field is linear in the coefficients (`sub_R`), so the errors of the coefficients are bounded by the size of a field (`fieldSize_le`) |
| C107 | `FloatModelSpectrum` | composition of C88 (extended: the results are doubles, and zero for vanishing coefficients) and C90 with the relative errors of squares (`power_err`) |

## Deviations of the code from its documentation

They are stated in the theorems (and in the notes of `MANIFEST.json`), never assumed away:

* C21, C37: the colatitude checks let some values slip. C23: `colloc_matrix` gives zeros, not NaN, outside the
  knots for `deriv >= order`. C27: extrapolation beyond `linear` lacks the factor `1/k!`. C28: a derivative at the
  end point of the model depends on the other times of the call. C31: `from_shc` with `step`-like order 1 loses the
  last interval. C32: unknown names in `source_list` are ignored. C33, C34: GSM needs a static part; unknown
  sources in `synth_coeffs_sm` raise other exceptions than documented. C42: the lower date bound of `sun_position`
  is not enforced. C44, C63: an even number of samples (the default) counts the Nyquist component twice. C46: the
  surface resistance is imaginary; scalar periods fail. C49: trailing incomplete degrees stay unscaled. C50: the
  secular variation of the last five years is not the tabulated one. C51: order 1 fails (with more than one B-spline).
* C97: in double precision `local_time` can be 24, and `center_azimuth` changes negative azimuths of the interval.
* C98: `geo_to_gg` gives NaN at the pole for the reference radius and for about half of the other radii (documented as possible); the first one is proved.
* C69: the conductivity of the core is never read, and a zero conductivity divides by zero; a scalar period is refused
  although documented, and a single radius ends in an `UnboundLocalError`.
* C58, C60: what is lost or cannot be loaded again (GSM coefficients that are not zonal, break points of `s11`,
  several calibrated satellites, single-interval offsets, single-interval order-1 models).
* C64: the default arrays are shared by reference. C65: `order` is ignored. C67: limits of the first map for all
  maps, maps without title not drawn, `plot_power_spectrum` changes its argument, doubled braces in
  `gauss_units(1)`. C68: the titles show an `nmax` beyond the degree of the model.
* C70: `timestamp` truncates, so whole seconds may come back one nanosecond early. C71: `local_time` can be 24.
  C72: flags that are not ASCII make `save_RC_h5file` warn after it has replaced the old file.
  C73: an shc-file that is cut inside its last number is read without exception with a wrong last value; cut between rows it gives a model of lower degree.
  C74: overlapping contexts over one key in two threads leave a changed value behind.
  C75: arrays of floats given to a model are kept by reference, later writes into them change the model.
  C76: saving over a file keeps parts that the model does not have; a crash over an old file mixes two models; an exception leaves a partial file.
  C77: arrays for a dipole must not just broadcast; dipoles in GSM that `transform_points` accepts make `transform_vectors` fail; `transform_vectors` fails for empty arrays.
  C79: `spherical_to_cartesian` returns `z` without the axes of `phi`, and `cartesian_to_spherical` returns `phi` without the axes of `z`, if the arguments have different shapes. If only one of the two vector components is given to `gg_to_geo` or `geo_to_gg`, it is silently ignored.
  C80: `mjd2000` treats every array of dtype `object` as dates (`np.dtype(datetime.datetime)` is the object dtype), so that Python integers in such an array are silently read as nanoseconds since 1970. The `ValueError('Unknown leap year option ...')` of `dyear_to_mjd` and `mjd_to_dyear` cannot be reached.
  C81: `load_shcfile` raises UnboundLocalError for a file of comments only and KeyError for a blank line before the parameter line; a word that is no number silently removes the rest of its line (NumPy only warns), which either shifts all following numbers or raises ValueError; the labels of the rows, the degrees of the parameter line and the number of rows are not checked against each other; a number of times -1 in the parameter line is accepted and gives rows without coefficients.
  C82: base vectors of `rotate_gauss` are not broadcast against each other, and components after the third are ignored. See C44 for the frequency vector.
  C83: files of gufm1, CALS7K and CovObs that end after two to order break points are silently loaded as zero models; IGRF files that end between two rows lose the coefficients of the other rows.
  C84: RC-index files that end within a time are accepted and make the index NaN around a wrong time.
  C85: `load_CHAOS_matfile` appends generic names to the list of the caller, which then appear in the meta data of files loaded later without Euler angles.
  C86: a NaN among the times of `synth_coeffs` switches off the check of the model interval, so that other times are extrapolated with the full polynomial whatever `extrapolate` says.
  C87: one NaN among the colatitudes of `synth_values` switches off the bounds check and the treatment of the poles for all points: colatitudes outside [0, 180] are accepted and mapped to the colatitude with the same cosine at the same azimuth; points at the poles get NaN.
  C91: `synth_values` and `design_gauss` return NaN in the azimuthal component for colatitudes within 6e-7 degrees of a pole but not at it.
