{"claims": [
 {"property": "C01", "status": "proved", "theorems": ["ChaosMagPy.Config.C01_keys_and_types", "ChaosMagPy.Config.C01_values_reaccepted", "ChaosMagPy.Config.C01_dict_update_bypasses"], "note": "Direct dict.update bypasses the validators (C01_dict_update_bypasses)."},
 {"property": "C02", "status": "proved", "theorems": ["ChaosMagPy.Config.C02_assignment", "ChaosMagPy.Config.C02_error_classes", "ChaosMagPy.Config.C02_accepted"], "note": ""},
 {"property": "C03", "status": "proved", "theorems": ["ChaosMagPy.Config.C03_load_applies_prefix"], "note": ""},
 {"property": "C04", "status": "proved", "theorems": ["ChaosMagPy.Config.C04_save_load", "ChaosMagPy.Config.C04_reachable", "ChaosMagPy.ConfigText.C04_text", "ChaosMagPy.ConfigText.C04_text_reachable"], "note": "C04_text and C04_text_reachable are about the characters of the JSON file; the conversion between floats and text is a parameter with the law that float(repr(x)) is x (an instance is given). JSON strings are sequences of Unicode scalar values (no lone surrogates)."},
 {"property": "C05", "status": "proved", "theorems": ["ChaosMagPy.Config.C05_context_restores", "ChaosMagPy.Config.C05_exception_leaks", "ChaosMagPy.Config.C05_nested_contexts_restore"], "note": "Finding: values overridden in a context are not restored when the body raises."},
 {"property": "C06", "status": "proved", "theorems": ["ChaosMagPy.Config.C06_version"], "note": "Finding: the version check is a substring search."},
 {"property": "C07", "status": "proved", "theorems": ["ChaosMagPy.Time.C07_is_leap_year", "ChaosMagPy.Time.C07_type_error", "ChaosMagPy.Time.C07_year_length"], "note": ""},
 {"property": "C08", "status": "proved", "theorems": ["ChaosMagPy.Time.C08_day_count_exists", "ChaosMagPy.Time.C08_mjd2000_general", "ChaosMagPy.Time.C08_mjd2000_exact", "ChaosMagPy.Time.C08_next_day", "ChaosMagPy.Time.C08_error_iff", "ChaosMagPy.Time.C08_wrap_witness"], "note": "Window of exactness is that of 64-bit nanoseconds; outside, wrap-around witness."},
 {"property": "C09", "status": "proved", "theorems": ["ChaosMagPy.Time.C09_dyear_roundtrip", "ChaosMagPy.Time.C09_mjd_roundtrip", "ChaosMagPy.Time.C09_no_leap_roundtrip"], "note": ""},
 {"property": "C10", "status": "proved", "theorems": ["ChaosMagPy.Time.C10_dyear_to_mjd_strictMono", "ChaosMagPy.Time.C10_mjd_to_dyear_strictMono", "ChaosMagPy.Time.C10_year_start"], "note": ""},
 {"property": "C11", "status": "proved", "theorems": ["ChaosMagPy.Time.C11_instant_roundtrip", "ChaosMagPy.Time.C11_date_roundtrip"], "note": ""},
 {"property": "C12", "status": "proved", "theorems": ["ChaosMagPy.Float.C12_degree_float", "ChaosMagPy.Float.C12_degree_from_float", "ChaosMagPy.Index.C12_label_at", "ChaosMagPy.Index.C12_count", "ChaosMagPy.Index.C12_bijection", "ChaosMagPy.Index.C12_nmax_of_dim", "ChaosMagPy.Index.C12_nmax_complete", "ChaosMagPy.Index.C12_degree_of_position", "ChaosMagPy.Index.C12_synthesis_positions"], "note": "C12_degree_float and C12_degree_from_float: also in double precision (degrees up to 2^25 - 2)."},
 {"property": "C13", "status": "proved", "theorems": ["ChaosMagPy.Shc.C13_roundtrip", "ChaosMagPy.Shc.C13_defaults", "ChaosMagPy.Shc.C13_window_error", "ChaosMagPy.Shc.C13_short_coeffs", "ChaosMagPy.Shc.C13_scalar_time_fails", "ChaosMagPy.Shc.C13_exact_numbers"], "note": "Findings: a scalar time (documented) raises TypeError after the parameter line was written; too few coefficients leave a truncated file."},
 {"property": "C14", "status": "proved", "theorems": ["ChaosMagPy.Legendre.C14_legendre_table", "ChaosMagPy.Legendre.C14_outside"], "note": ""},
 {"property": "C15", "status": "proved", "theorems": ["ChaosMagPy.Legendre.C15_in_bounds", "ChaosMagPy.Legendre.C15_degree_zero", "ChaosMagPy.Legendre.C15_written_once", "ChaosMagPy.Legendre.C15_reads_after_writes", "ChaosMagPy.Legendre.C15_equations"], "note": ""},
 {"property": "C16", "status": "proved", "theorems": ["ChaosMagPy.Synth.C16_gradient"], "note": ""},
 {"property": "C17", "status": "proved", "theorems": ["ChaosMagPy.Synth.C17_design_product", "ChaosMagPy.Synth.C17_design_succeeds", "ChaosMagPy.Synth.C17_columns"], "note": ""},
 {"property": "C18", "status": "proved", "theorems": ["ChaosMagPy.Synth.C18_linear", "ChaosMagPy.Synth.C18_additive_degrees"], "note": ""},
 {"property": "C19", "status": "proved", "theorems": ["ChaosMagPy.Synth.C19_longitude_period", "ChaosMagPy.Synth.C19_radial_scaling"], "note": ""},
 {"property": "C20", "status": "proved", "theorems": ["ChaosMagPy.Synth.C20_defaults", "ChaosMagPy.Synth.C20_infer_nmax", "ChaosMagPy.Synth.C20_infer_nothing", "ChaosMagPy.Synth.C20_infer_nmax_given_mmax", "ChaosMagPy.Synth.C20_errors", "ChaosMagPy.Synth.C20_complete_field", "ChaosMagPy.Synth.C20_surplus_ignored", "ChaosMagPy.Synth.C20_large_mmax_fails"], "note": "Finding: mmax above the degree supported by the coefficients with nmax=None gives IndexError."},
 {"property": "C21", "status": "proved", "theorems": ["ChaosMagPy.Synth.C21_colatitude_check", "ChaosMagPy.Synth.C21_out_of_range_slips_through", "ChaosMagPy.Synth.C21_pointwise"], "note": "Finding: out-of-range colatitudes slip through if another point is exactly at a pole."},
 {"property": "C22", "status": "proved", "theorems": ["ChaosMagPy.Synth.C22_continuous_to_poles"], "note": ""},
 {"property": "C23", "status": "proved", "theorems": ["ChaosMagPy.BSpline.C23_entries", "ChaosMagPy.BSpline.C23_partition", "ChaosMagPy.BSpline.C23_high_derivative", "ChaosMagPy.BSpline.C23_outside"], "note": "For deriv >= order the matrix is zero even outside the base interval, where it is NaN otherwise."},
 {"property": "C24", "status": "proved", "theorems": ["ChaosMagPy.BSpline.C24_augment", "ChaosMagPy.BSpline.C24_order1", "ChaosMagPy.BSpline.C24_fit"], "note": ""},
 {"property": "C25", "status": "proved", "theorems": ["ChaosMagPy.BSpline.C25_product", "ChaosMagPy.BSpline.C25_succeeds", "ChaosMagPy.BSpline.C25_value_error"], "note": ""},
 {"property": "C26", "status": "proved", "theorems": ["ChaosMagPy.PPoly.C26_inside", "ChaosMagPy.PPoly.C26_end", "ChaosMagPy.PPoly.C26_succeeds", "ChaosMagPy.PPoly.C26_constructed"], "note": ""},
 {"property": "C27", "status": "proved", "theorems": ["ChaosMagPy.PPoly.C27_off", "ChaosMagPy.PPoly.C27_taylor_upto_linear", "ChaosMagPy.PPoly.C27_constant", "ChaosMagPy.PPoly.C27_linear", "ChaosMagPy.PPoly.C27_actual_formula", "ChaosMagPy.PPoly.C27_above_linear", "ChaosMagPy.PPoly.C27_static", "ChaosMagPy.PPoly.C27_quadratic_witness"], "note": "Finding: above linear order the extrapolation lacks the 1/k! of the Taylor polynomial (C27_above_linear, C27_quadratic_witness); the documented option names are proved up to linear, the actual formula for all."},
 {"property": "C28", "status": "proved", "theorems": ["ChaosMagPy.PPoly.C28_values_independent", "ChaosMagPy.PPoly.C28_derivative_at_end", "ChaosMagPy.PPoly.C28_witness"], "note": "Finding: derivatives at the end point depend on whether another time of the same call is outside (C28_witness)."},
 {"property": "C29", "status": "proved", "theorems": ["ChaosMagPy.Chaos.C29_chaos", "ChaosMagPy.PPoly.C29_truncation", "ChaosMagPy.PPoly.C29_missing"], "note": ""},
 {"property": "C30", "status": "proved", "theorems": ["ChaosMagPy.PPoly.C30_roundtrip", "ChaosMagPy.PPoly.C30_roundtrip_file"], "note": ""},
 {"property": "C31", "status": "proved", "theorems": ["ChaosMagPy.PPoly.C31_roundtrip", "ChaosMagPy.PPoly.C31_possible", "ChaosMagPy.PPoly.C31_extra_samples", "ChaosMagPy.PPoly.C31_order1"], "note": "Finding: order-1 models lose the last interval with extrapolate='off'. make_lsq_spline is modelled by its specification (any least-squares solution)."},
 {"property": "C32", "status": "proved", "theorems": ["ChaosMagPy.Chaos.C32_sum", "ChaosMagPy.Chaos.C32_order", "ChaosMagPy.Chaos.C32_aliases", "ChaosMagPy.Chaos.C32_all", "ChaosMagPy.Chaos.C32_error", "ChaosMagPy.Chaos.C32_unknown_silent", "ChaosMagPy.Chaos.C32_static_constant"], "note": "Finding: unknown source names are silently ignored (a misspelt name gives zeros)."},
 {"property": "C33", "status": "proved", "theorems": ["ChaosMagPy.Chaos.C33_result", "ChaosMagPy.Chaos.C33_linear", "ChaosMagPy.Chaos.C33_truncation", "ChaosMagPy.Chaos.C33_errors"], "note": "Finding: a model without static part cannot compute its GSM field (AttributeError)."},
 {"property": "C34", "status": "proved", "theorems": ["ChaosMagPy.Chaos.C34_interp", "ChaosMagPy.Chaos.C34_nodes", "ChaosMagPy.Chaos.C34_between", "ChaosMagPy.Chaos.C34_result", "ChaosMagPy.Chaos.C34_baseline", "ChaosMagPy.Chaos.C34_affine", "ChaosMagPy.Chaos.C34_errors"], "note": "interp1d by specification. Findings: unknown sources give KeyError/IndexError instead of ValueError when the RC file is used; missing baselines give TypeError."},
 {"property": "C35", "status": "proved", "theorems": ["ChaosMagPy.Chaos.C35_gsm", "ChaosMagPy.Chaos.C35_sm"], "note": ""},
 {"property": "C36", "status": "proved", "theorems": ["ChaosMagPy.Coord.C36_matrix", "ChaosMagPy.Coord.C36_vectors", "ChaosMagPy.Coord.C36_undo", "ChaosMagPy.Coord.C36_unknown"], "note": ""},
 {"property": "C37", "status": "proved", "theorems": ["ChaosMagPy.Coord.C37_gsm", "ChaosMagPy.Coord.C37_sm", "ChaosMagPy.Coord.C37_mag", "ChaosMagPy.Coord.C37_use", "ChaosMagPy.Coord.C37_use_poles", "ChaosMagPy.Coord.C37_use_poles_slip", "ChaosMagPy.RotateFft.C37_exists"], "note": "Finding: the pole check of basevectors_use misses out-of-range colatitudes (C37_use_poles_slip)."},
 {"property": "C38", "status": "proved", "theorems": ["ChaosMagPy.Coord.C38_spherical", "ChaosMagPy.Coord.C38_transform_points", "ChaosMagPy.Coord.C38_same_point", "ChaosMagPy.Coord.C38_unknown"], "note": ""},
 {"property": "C39", "status": "proved", "theorems": ["ChaosMagPy.Coord.C39_meaning", "ChaosMagPy.Coord.C39_gg_to_geo", "ChaosMagPy.Coord.C39_gg_geo_gg", "ChaosMagPy.Coord.C39_above_surface", "ChaosMagPy.Coord.C39_geo_to_gg", "ChaosMagPy.Coord.C39_poles", "ChaosMagPy.Coord.C39_basevectors", "ChaosMagPy.Coord.C39_components", "ChaosMagPy.Coord.C39_components_back", "ChaosMagPy.Coord.C39_components_inverse"], "note": "Exact arithmetic; all ellipsoids 0<b<=a; points further than (a^2-b^2)/b (43 km for WGS84) from the centre. gg_to_geo at the poles relies on tan(pi/2) being huge in floating point and is excluded."},
 {"property": "C40", "status": "proved", "theorems": ["ChaosMagPy.Coord.C40_center_azimuth", "ChaosMagPy.Coord.C40_idempotent"], "note": ""},
 {"property": "C41", "status": "proved", "theorems": ["ChaosMagPy.Coord.C41_local_time", "ChaosMagPy.Coord.C41_periodic"], "note": ""},
 {"property": "C42", "status": "proved", "theorems": ["ChaosMagPy.Coord.C42_window", "ChaosMagPy.Coord.C42_range", "ChaosMagPy.Coord.C42_direction"], "note": "Finding: the lower end of the documented window (1901) is never enforced."},
 {"property": "C43", "status": "proved", "theorems": ["ChaosMagPy.Coord.C43_coefficients", "ChaosMagPy.Coord.C43_scaling", "ChaosMagPy.Coord.C43_pole", "ChaosMagPy.Coord.C43_length", "ChaosMagPy.Coord.C43_igrf"], "note": ""},
 {"property": "C44", "status": "proved", "theorems": ["ChaosMagPy.Fourier.C44_sampling", "ChaosMagPy.Fourier.C44_unscaled_file", "ChaosMagPy.Fourier.C44_start_date", "ChaosMagPy.Fourier.C44_filter", "ChaosMagPy.Fourier.C44_vector_refused", "ChaosMagPy.Fourier.C44_vector_wrong", "ChaosMagPy.Fourier.C44_response_degree"], "note": "Samples are recovered for odd N; for even N the Nyquist term is counted twice (exact excess proved). Findings: components written unscaled and read back from the file are synthesised wrongly (C44_unscaled_file); a start date shifts the phase (C44_start_date); the documented (k,) frequency form is broken (C44_vector_*). argsort by specification."},
 {"property": "C45", "status": "proved", "theorems": ["ChaosMagPy.Analysis.C45_recovers", "ChaosMagPy.Analysis.C45_gauss_rule", "ChaosMagPy.Analysis.C45_degree_zero"], "note": ""},
 {"property": "C46", "status": "proved", "theorems": ["ChaosMagPy.QResponse.C46_induction", "ChaosMagPy.QResponse.C46_potential", "ChaosMagPy.QResponse.C46_passive", "ChaosMagPy.QResponse.C46_phase", "ChaosMagPy.QResponse.C46_resistance_imaginary", "ChaosMagPy.QResponse.C46_profile", "ChaosMagPy.QResponse.C46_split", "ChaosMagPy.QResponse.C46_insulator", "ChaosMagPy.QResponse.C46_vectorised", "ChaosMagPy.QResponse.C46_errors", "ChaosMagPy.QResponse.C46_table"], "note": "kind='constant' (truncated power series for Bessel functions) is not modelled. Findings: in the default mode rho_a comes out purely imaginary (C46_resistance_imaginary); a scalar period raises TypeError for two or more layers (C46_errors). Exact complex arithmetic."},
 {"property": "C47", "status": "proved", "theorems": ["ChaosMagPy.Spectrum.C47_mean_square", "ChaosMagPy.Spectrum.C47_mean_square_degree", "ChaosMagPy.Spectrum.C47_degree", "ChaosMagPy.Spectrum.C47_defaults", "ChaosMagPy.Spectrum.C47_scaling", "ChaosMagPy.Spectrum.C47_unknown_source"], "note": ""},
 {"property": "C48", "status": "proved", "theorems": ["ChaosMagPy.Spectrum.C48_correlation", "ChaosMagPy.Spectrum.C48_symmetric", "ChaosMagPy.Spectrum.C48_scaling", "ChaosMagPy.Spectrum.C48_sizes"], "note": ""},
 {"property": "C49", "status": "proved", "theorems": ["ChaosMagPy.Spectrum.C49_sensitivity", "ChaosMagPy.Spectrum.C49_sizes"], "note": ""},
 {"property": "C50", "status": "proved", "theorems": ["ChaosMagPy.Igrf.C50_interpolation", "ChaosMagPy.Igrf.C50_epochs", "ChaosMagPy.Igrf.C50_end", "ChaosMagPy.Igrf.C50_secular_variation", "ChaosMagPy.Igrf.C50_secular_variation_differs"], "note": "Finding: in the last five years the model's secular variation is not exactly the tabulated one (C50_secular_variation_differs), since five calendar years are never 5*365.25 days. Years 1708..2291 as in C10."},
 {"property": "C51", "status": "proved", "theorems": ["ChaosMagPy.BSpline.C51_padded", "ChaosMagPy.BSpline.C51_order1", "ChaosMagPy.BSpline.C51_breaks", "ChaosMagPy.BSpline.C51_covobs", "ChaosMagPy.BSpline.C51_gufm1", "ChaosMagPy.BSpline.C51_cals7k", "ChaosMagPy.SplineText.C51_covobs_file", "ChaosMagPy.SplineText.C51_gufm1_file", "ChaosMagPy.SplineText.C51_cals7k_file"], "note": "The files are lists of characters; the numbers are decimal strings with optional sign, point and exponent (Spec/Numeral), D exponents for CALS7K. Finding: order 1 files with more than one B-spline cannot be loaded (slice 0:-0)."},
 {"property": "C52", "status": "proved", "theorems": ["ChaosMagPy.Keywords.C52_values", "ChaosMagPy.Keywords.C52_keys", "ChaosMagPy.Keywords.C52_idempotent"], "note": ""},
 {"property": "C53", "status": "proved", "theorems": ["ChaosMagPy.BSpline.C53_from_bspline", "ChaosMagPy.BSpline.C53_textbook"], "note": ""},
 {"property": "C54", "status": "proved", "theorems": ["ChaosMagPy.Coord.C54_zenith_angle"], "note": ""},
 {"property": "C55", "status": "proved", "theorems": ["ChaosMagPy.Chaos.C55_pointwise"], "note": "All arguments broadcast to lists of points; nmax_static=0 excluded (ValueError)."},
 {"property": "C56", "status": "proved", "theorems": ["ChaosMagPy.Chaos.C56_model", "ChaosMagPy.Chaos.C56_gsm", "ChaosMagPy.Chaos.C56_sm", "ChaosMagPy.Chaos.C56_tdep", "ChaosMagPy.Chaos.C56_static"], "note": ""},
 {"property": "C57", "status": "proved", "theorems": ["ChaosMagPy.Analysis.C57_shape", "ChaosMagPy.Analysis.C57_rotation", "ChaosMagPy.Analysis.C57_blocks", "ChaosMagPy.Analysis.C57_potential", "ChaosMagPy.Analysis.C57_unique", "ChaosMagPy.Analysis.C57_identity", "ChaosMagPy.Analysis.C57_compose", "ChaosMagPy.Analysis.C57_degree_zero"], "note": "leggauss by specification (exact Gauss rule, existence proved in C45_gauss_rule); exact arithmetic; one point in time."},
 {"property": "C58", "status": "proved", "theorems": ["ChaosMagPy.Matfile.C58_roundtrip", "ChaosMagPy.Matfile.C58_exact", "ChaosMagPy.Matfile.C58_reload", "ChaosMagPy.Matfile.C58_needs_tdep", "ChaosMagPy.Matfile.C58_prerotation_required", "ChaosMagPy.Matfile.C58_calibration", "ChaosMagPy.Matfile.C58_single_interval", "ChaosMagPy.Matfile.C58_equal_intervals", "ChaosMagPy.Matfile.C58_names", "ChaosMagPy.Matfile.C58_optional"], "note": "hdf5storage by specification: arrays come back with the written shape or with at least two axes (both cases proved). Findings: single q11 interval, several calibrated satellites and missing time-dependent part save but do not load; satellites with equally many intervals get arrays of the wrong shape (C58_equal_intervals); non-zonal GSM coefficients and the break points of s11 are lost."},
 {"property": "C59", "status": "proved", "theorems": ["ChaosMagPy.Matfile.C59_unknown", "ChaosMagPy.Matfile.C59_angles", "ChaosMagPy.Matfile.C59_outside", "ChaosMagPy.Matfile.C59_rates"], "note": "Outside the interval derivatives are covered by C27/C28."},
 {"property": "C60", "status": "proved", "theorems": ["ChaosMagPy.Chaos.C60_tdep", "ChaosMagPy.Chaos.C60_step", "ChaosMagPy.Chaos.C60_static", "ChaosMagPy.Chaos.C60_single_interval", "ChaosMagPy.Chaos.C60_errors"], "note": "make_lsq_spline by specification, numbers of the file exact (text: C13). Findings: an order-one time-dependent part with a single interval comes back as static part; save_shcfile(model='static') without time-dependent part raises AttributeError; an unknown model name silently writes nothing."},
 {"property": "C61", "status": "proved", "theorems": ["ChaosMagPy.SynthArr.C61_broadcast", "ChaosMagPy.SynthArr.C61_grid", "ChaosMagPy.SynthArr.C61_shape_error", "ChaosMagPy.SynthArr.C61_field", "ChaosMagPy.SynthArr.C61_regular_grid", "ChaosMagPy.SynthArr.C61_grid_pairs"], "note": "NumPy arrays and broadcasting are modelled (Model/NumPy.lean). Finding: with grid=True a one-dimensional set of coefficients (times) is paired with the longitudes instead of being combined with all grid points (C61_grid_pairs). Empty shapes (a zero length) excluded."},
 {"property": "C62", "status": "proved", "theorems": ["ChaosMagPy.ChaosArr.C62_call", "ChaosMagPy.ChaosArr.C62_shape_error", "ChaosMagPy.ChaosArr.C62_parts", "ChaosMagPy.ChaosArr.C62_static", "ChaosMagPy.ChaosArr.C62_grid", "ChaosMagPy.ChaosArr.C62_rc_error"], "note": "RC arrays must fit to the shape of the times; extra leading axes of length one count as errors in the model."},
 {"property": "C63", "status": "proved", "theorems": ["ChaosMagPy.RotateFft.C63_sampling", "ChaosMagPy.RotateFft.C63_gsm", "ChaosMagPy.RotateFft.C63_sm", "ChaosMagPy.RotateFft.C63_induced", "ChaosMagPy.RotateFft.C63_qfunc", "ChaosMagPy.RotateFft.C63_reference", "ChaosMagPy.RotateFft.C63_window", "ChaosMagPy.RotateFft.C63_filter", "ChaosMagPy.RotateFft.C63_arguments"], "note": "leggauss and the order of np.argsort by specification, np.fft as the exact DFT; base vectors that are NaN stop the model. Finding: the default number of samples 70128 is even, so that at the samples the synthesis adds the Nyquist component once more (C63_sampling)."},
 {"property": "C64", "status": "proved", "theorems": ["ChaosMagPy.ConfigHeap.C64_refines", "ChaosMagPy.ConfigHeap.C64_writes", "ChaosMagPy.ConfigHeap.C64_protected", "ChaosMagPy.ConfigHeap.C64_context", "ChaosMagPy.ConfigHeap.C64_alias", "ChaosMagPy.ConfigHeap.C64_context_alias"], "note": "Objects and references are modelled for arrays (heap); an element written keeps the type of the array. Finding: DEFAULTS' arrays are shared by reference (C64_alias), a kept reference defeats context (C64_context_alias)."},
 {"property": "C65", "status": "proved", "theorems": ["ChaosMagPy.SynthPP.C65_same", "ChaosMagPy.SynthPP.C65_field", "ChaosMagPy.SynthPP.C65_pieces", "ChaosMagPy.SynthPP.C65_default", "ChaosMagPy.SynthPP.C65_order_ignored"], "note": "Points are a list (arrays: C61). The pp evaluation is SciPy PPoly by specification. Finding: the argument order of synth_from_pp is never used (C65_order_ignored)."},
 {"property": "C66", "status": "proved", "theorems": ["ChaosMagPy.SynthPP.C66_axis", "ChaosMagPy.SynthPP.C66_axis_error", "ChaosMagPy.SynthPP.C66_model", "ChaosMagPy.SynthPP.C66_parseval"], "note": "Axis handling with arrays of any shape; rows of the result not written stay uninitialised (never happens for the documented sizes, see C47)."},
 {"property": "C67", "status": "proved", "theorems": ["ChaosMagPy.Plot.C67_maps", "ChaosMagPy.Plot.C67_limits", "ChaosMagPy.Plot.C67_layout", "ChaosMagPy.Plot.C67_mesh", "ChaosMagPy.Plot.C67_timeseries", "ChaosMagPy.Plot.C67_timeseries_error", "ChaosMagPy.Plot.C67_spectrum", "ChaosMagPy.Plot.C67_units"], "note": "What is drawn is a list of panels (Matplotlib by specification). Findings: the limits of the first map are used for all maps, maps without title are not drawn, plot_power_spectrum writes NaN into the array of the caller, gauss_units(1) has doubled braces."},
 {"property": "C68", "status": "proved", "theorems": ["ChaosMagPy.Plot.C68_maps", "ChaosMagPy.Plot.C68_static", "ChaosMagPy.Plot.C68_missing", "ChaosMagPy.Plot.C68_timeseries", "ChaosMagPy.Plot.C68_spectrum", "ChaosMagPy.Plot.C68_external", "ChaosMagPy.Plot.C68_external_error"], "note": "Finding: titles show the value of nmax even if it exceeds the degree of the model. Lower and upper case of names by String.toLower/toUpper."},
 {"property": "C69", "status": "proved", "theorems": ["ChaosMagPy.QResponse.C69_limit", "ChaosMagPy.QResponse.C69_series", "ChaosMagPy.QResponse.C69_exact", "ChaosMagPy.QResponse.C69_profile", "ChaosMagPy.QResponse.C69_terminates", "ChaosMagPy.QResponse.C69_outcome", "ChaosMagPy.QResponse.C69_core_unused"], "note": "Exact arithmetic, periods and radii as arrays. The code uses n! where the usual normalisation has (2n+1)!!: a harmless change of basis; its divisor is proved not to vanish (Lemmas/Divisor). With series, the result for eps=1e-10 itself is described by the truncation bound (C69_series) and the limit eps -> 0 (C69_limit), not by an explicit bound on C. Zero conductivity divides by zero (excluded; the layers are conducting). Findings: sigma[-1] is unused, list radius raises AttributeError, one radius UnboundLocalError, scalar period TypeError."},
 {"property": "C70", "status": "proved", "theorems": ["ChaosMagPy.Float.C70_dyear_roundtrip", "ChaosMagPy.Float.C70_strictMono", "ChaosMagPy.Float.C70_mjd_roundtrip", "ChaosMagPy.Float.C70_accuracy", "ChaosMagPy.Float.C70_midnight", "ChaosMagPy.Float.C70_timestamp", "ChaosMagPy.Float.C70_timestamp_inexact"], "note": "One double operation = exact result rounded to a nearest double, ties in any way; NaN, infinities, overflow and the sign of zero are not modelled. Finding: timestamp truncates, so timestamp(mjd2000('2000-01-01T00:00:11')) is 1 ns early (C70_timestamp_inexact)."},
 {"property": "C71", "status": "proved", "theorems": ["ChaosMagPy.Float.C71_center_azimuth", "ChaosMagPy.Float.C71_local_time", "ChaosMagPy.Float.C71_local_time_24"], "note": "Same floating point model as C70; fmod is exact as in C. Finding: local_time(0.125, -45.00000000000001) is 24.0, outside of the documented [0, 24) (C71_local_time_24)."},
 {"property": "C72", "status": "proved", "theorems": ["ChaosMagPy.Rc.C72_read", "ChaosMagPy.Rc.C72_read_error", "ChaosMagPy.Rc.C72_save", "ChaosMagPy.Rc.C72_equivalent", "ChaosMagPy.Rc.C72_failure", "ChaosMagPy.Rc.C72_nonascii"], "note": "pandas.read_csv is modelled for rows of five words; missing values, quotes, parse_dates and downloads are not. Findings: with a flag that is not ASCII the old HDF5 file is replaced and the flags are lost, with only a warning (C72_nonascii); flags are cut to one character."},
 {"property": "C73", "status": "proved", "theorems": ["ChaosMagPy.ConfigText.C73_config", "ChaosMagPy.Shc.C73_cut", "ChaosMagPy.Shc.C73_crash", "ChaosMagPy.Shc.C73_silent"], "note": "Crash points are lengths of the beginning of the text that reached the file. Findings: an shc-file cut inside of its last number is read without an exception with a wrong coefficient (C73_silent); an shc-file cut between rows is read as a model of lower degree without a warning."},
 {"property": "C74", "status": "proved", "theorems": ["Spec.C74_isolated", "Spec.C74_progress", "Spec.C74_contexts", "Spec.C74_race"], "note": "One call of __setitem__ is one step; programs with fullreset or changes of files are excluded in C74_isolated. Finding (C74_race): overlapping contexts over one key in two threads leave the value of one of them behind for good."},
 {"property": "C75", "status": "proved", "theorems": ["ChaosMagPy.ModelHeap.C75_constructed", "ChaosMagPy.ModelHeap.C75_frame", "ChaosMagPy.ModelHeap.C75_live", "ChaosMagPy.ModelHeap.C75_private", "ChaosMagPy.ModelHeap.C75_results", "ChaosMagPy.ModelHeap.C75_write", "ChaosMagPy.ModelHeap.C75_alias", "ChaosMagPy.ModelHeap.C75_chaos", "ChaosMagPy.ModelHeap.C75_synth", "ChaosMagPy.ModelHeap.C75_ppdict"], "note": "Arrays are contiguous; the order of a constructed model is positive. Finding (C75_alias, C75_live, C75_chaos): float arrays are kept by reference, so writing into an array after passing it changes all models made from it (of a CHAOS model only the time-dependent part follows the break points)."},
 {"property": "C76", "status": "proved", "theorems": ["ChaosMagPy.Matfile.C76_errors", "ChaosMagPy.Matfile.C76_overwrite", "ChaosMagPy.Matfile.C76_full", "ChaosMagPy.Matfile.C76_stale", "ChaosMagPy.Matfile.C76_crash_over", "ChaosMagPy.Matfile.C76_crash", "ChaosMagPy.Matfile.C76_crash_model", "ChaosMagPy.Matfile.C76_exception"], "note": "hdf5storage by its contract (one write is not interrupted, other variables are kept; in an existing file a model_Euler that is no structure is replaced). Findings: parts that the model does not have are taken from the old file (C76_stale); a crash over an old file mixes two models (C76_crash_over); an exception leaves a file that can be loaded (C76_exception)."},
 {"property": "C77", "status": "proved", "theorems": ["ChaosMagPy.CoordArr.C77_points", "ChaosMagPy.CoordArr.C77_unknown", "ChaosMagPy.CoordArr.C77_times", "ChaosMagPy.CoordArr.C77_dipoles", "ChaosMagPy.CoordArr.C77_shapes", "ChaosMagPy.CoordArr.C77_gsm_dipoles", "ChaosMagPy.CoordArr.C77_refused", "ChaosMagPy.CoordArr.C77_vectors"], "note": "Arrays of real numbers in exact arithmetic with NaN; the results for single points are those of C36-C38. Findings: _dipole_to_unit documents that all arrays must broadcast, but np.stack needs equal shapes (C77_dipoles); transform_points accepts more dipoles in GSM than transform_vectors (C77_gsm_dipoles) and more than in SM (C77_shapes); transform_vectors raises for empty arrays where transform_points returns empty ones (C77_refused)."},
 {"property": "C78", "status": "proved", "theorems": ["ChaosMagPy.DesignArr.C78_gauss", "ChaosMagPy.DesignArr.C78_product", "ChaosMagPy.DesignArr.C78_refused", "ChaosMagPy.DesignArr.C78_matrix", "ChaosMagPy.DesignArr.C78_matrix_shapes"], "note": "Exact reals; legendre_poly entry by entry. In the product no radius is zero."},
 {"property": "C79", "status": "proved", "theorems": ["ChaosMagPy.ElemArr.C79_zenith", "ChaosMagPy.ElemArr.C79_local_time", "ChaosMagPy.ElemArr.C79_azimuth", "ChaosMagPy.ElemArr.C79_to_cartesian", "ChaosMagPy.ElemArr.C79_to_spherical", "ChaosMagPy.ElemArr.C79_basevectors_gg", "ChaosMagPy.ElemArr.C79_gg_to_geo", "ChaosMagPy.ElemArr.C79_geo_to_gg"], "note": "Exact reals, with NaN as an extra value for roots of negative numbers and divisions by zero (round-off near the poles, which the documentation warns about, is excluded)."},
 {"property": "C80", "status": "proved", "theorems": ["ChaosMagPy.TimeArr.C80_date_string", "ChaosMagPy.TimeArr.C80_mjd2000", "ChaosMagPy.TimeArr.C80_is_leap_year", "ChaosMagPy.TimeArr.C80_dyear_to_mjd", "ChaosMagPy.TimeArr.C80_mjd_to_dyear", "ChaosMagPy.TimeArr.C80_dyear_roundtrip", "ChaosMagPy.TimeArr.C80_timestamp", "ChaosMagPy.TimeArr.C80_datetimes", "ChaosMagPy.TimeArr.C80_stamps", "ChaosMagPy.TimeArr.C80_instant_roundtrip", "ChaosMagPy.TimeArr.C80_object_years"], "note": "NumPy's ISO 8601 parser is modelled character by character for dates (not for times of the day, NaT, today, now, which the strings built from integers never contain); units of years and months and time zones are left out."},
 {"property": "C81", "status": "proved", "theorems": ["ChaosMagPy.Shc.C81_reads", "ChaosMagPy.Shc.C81_numbers", "ChaosMagPy.Shc.C81_any_text", "ChaosMagPy.Shc.C81_comments", "ChaosMagPy.Shc.C81_final_newline", "ChaosMagPy.Shc.C81_only_comments", "ChaosMagPy.Shc.C81_few_parameters", "ChaosMagPy.Shc.C81_garbage"], "note": "np.fromstring is modelled without inf and nan; that it only warns (DeprecationWarning) about a word that is no number is the behaviour of the NumPy versions the package supports."},
 {"property": "C82", "status": "proved", "theorems": ["ChaosMagPy.RotateArr.C82_synth_shapes", "ChaosMagPy.RotateArr.C82_synth", "ChaosMagPy.RotateArr.C82_vector", "ChaosMagPy.RotateArr.C82_rotate", "ChaosMagPy.RotateArr.C82_rotate_shapes", "ChaosMagPy.RotateArr.C82_rotate_short"], "note": "Exact arithmetic; the matrix of one time is that of C44, C57 and C63."},
 {"property": "C83", "status": "proved", "theorems": ["ChaosMagPy.Igrf.C83_igrf", "ChaosMagPy.Igrf.C83_igrf_rows", "ChaosMagPy.SplineText.C83_gufm1", "ChaosMagPy.SplineText.C83_cals7k", "ChaosMagPy.SplineText.C83_covobs", "ChaosMagPy.SplineText.C83_gufm1_zero", "ChaosMagPy.SplineText.C83_cals7k_zero", "ChaosMagPy.SplineText.C83_covobs_zero"], "note": "The files are lists of characters. Finding: files of the spline models that end within the break points are accepted as zero models (NumPy takes the negative number of rows for 'infer'), IGRF files that end between two rows lose coefficients silently."},
 {"property": "C84", "status": "proved", "theorems": ["ChaosMagPy.Rc.C84_text", "ChaosMagPy.Rc.C84_complete", "ChaosMagPy.Rc.C84_time", "ChaosMagPy.Rc.C84_kept", "ChaosMagPy.Rc.C84_lost", "ChaosMagPy.Rc.C84_end", "ChaosMagPy.Rc.C84_h5"], "note": "pandas and np.interp by specification (missing cells are NaN, NaN at one end of an interval is NaN inside); datasets written before a crash are in the file. Finding: cut files are accepted silently, with NaN around a wrong time."},
 {"property": "C85", "status": "proved", "theorems": ["ChaosMagPy.Matfile.C85_list", "ChaosMagPy.Matfile.C85_history", "ChaosMagPy.Matfile.C85_no_euler", "ChaosMagPy.Matfile.C85_early", "ChaosMagPy.Matfile.C85_growth"], "note": "The list is the only state shared between calls; files as in C58. Finding: the list of the caller is changed in place, and the meta data of a later file without Euler angles name satellites that are in neither the file nor the original list."},
 {"property": "C86", "status": "proved", "theorems": ["ChaosMagPy.PPoly.C86_complete", "ChaosMagPy.PPoly.C86_missing", "ChaosMagPy.PPoly.C86_unchecked", "ChaosMagPy.PPoly.C86_warnings", "ChaosMagPy.PPoly.C86_message"], "note": "np.amin and np.amax return NaN if a time is NaN; SciPy evaluates to NaN there. Finding: a single NaN turns the extrapolation options off and the unrestricted polynomial of the last piece is used silently."},
 {"property": "C87", "status": "proved", "theorems": ["ChaosMagPy.SynthNan.C87_isolated", "ChaosMagPy.SynthNan.C87_missing", "ChaosMagPy.SynthNan.C87_unchecked_succeeds", "ChaosMagPy.SynthNan.C87_unchecked_outside", "ChaosMagPy.SynthNan.C87_unchecked_pole", "ChaosMagPy.SynthNan.C87_zonal", "ChaosMagPy.SynthNan.C87_uniform"], "note": "Numbers are reals with one value for NaN and infinite. np.amin and np.amax of the colatitudes are NaN if one of them is; comparisons with NaN are false, so neither the bounds check nor the treatment of the poles happens. Finding: colatitudes outside [0, 180] are then accepted silently."},
 {"property": "C88", "status": "proved", "theorems": ["ChaosMagPy.PPoly.C88_linear", "ChaosMagPy.PPoly.C88_bound", "ChaosMagPy.PPoly.C88_breaks", "ChaosMagPy.PPoly.C88_constant"], "note": "The order of the operations is that of SciPy's evaluate_poly1 (terms added from the lowest power on) and PPoly.derivative; 365.25**deriv is exact for deriv <= 5. No fused multiply-add, no overflow (excluded by the bounds). Extrapolation by polynomials of order 3 and more (see C27) is not bounded here."},
 {"property": "C89", "status": "proved", "theorems": ["ChaosMagPy.Float.C89_roundtrip", "ChaosMagPy.Float.C89_resave", "ChaosMagPy.Float.C89_defaults"], "note": "Formatting with eight decimals rounds the exact value of the double (ties to even), reading gives the double next to the decimal number; times go through the conversions of C70. Sign of zero not modelled, therefore the hypothesis on negative coefficients that round to zero for the equality of the texts. The number of times, degrees and the order are below 2^53."},
 {"property": "C90", "status": "proved", "theorems": ["ChaosMagPy.FloatSpectrum.C90_power", "ChaosMagPy.FloatSpectrum.C90_defaults", "ChaosMagPy.FloatSpectrum.C90_correlation", "ChaosMagPy.FloatSpectrum.C90_self", "ChaosMagPy.FloatSpectrum.C90_symmetric", "ChaosMagPy.FloatSpectrum.C90_sensitivity"], "note": "np.sum is any way of adding up the numbers two at a time (relation `Added`); pow of the C library is any function within one unit in the last place (glibc documents less); sqrt, division and products are rounded to nearest as IEEE 754 requires. The ratio of the radii to the power 2N+4 lies between 2^-500 and 2^500."},
 {"property": "C91", "status": "proved", "theorems": ["ChaosMagPy.FloatLegendre.C91_sine", "ChaosMagPy.FloatLegendre.C91_positive", "ChaosMagPy.FloatLegendre.C91_poles", "ChaosMagPy.FloatLegendre.C91_lost", "ChaosMagPy.FloatLegendre.C91_design", "ChaosMagPy.FloatLegendre.C91_defined", "ChaosMagPy.FloatLegendre.C91_quotient"], "note": "Found: for 0 < theta <= 6e-7 degrees (and as close to 180) the cosine rounds to 1, sqrt(1-costh**2) is 0, and Pnm/sinth is 0/0: B_phi is NaN (the test for poles is theta == 0). The bounds that hold for any cosine with an error of 2^-52 start at 1.3e-6 degrees. Overflow is not modelled; sine and power of the platform are arbitrary."},
 {"property": "C92", "status": "proved", "theorems": ["ChaosMagPy.FloatLegendre.C92_values", "ChaosMagPy.FloatLegendre.C92_derivatives"], "note": "The factor (5/2)^n is a worst case (a majorant of the recursions); the bound is informative up to degree 25 or so. The cosine of the platform is any function with doubles in [-1, 1] within 2^-52 of the cosine."},
 {"property": "C93", "status": "proved", "theorems": ["ChaosMagPy.FloatLegendre.C93_internal", "ChaosMagPy.FloatLegendre.C93_external"], "note": "The bound is a worst case (compare C92). Powers of the radius: any function within 2^-52 of the power, relative. Inputs are numbers; NaN in coordinates is C87. At the poles compare C91."},
 {"property": "C94", "status": "proved", "theorems": ["ChaosMagPy.FloatLegendre.C94_internal", "ChaosMagPy.FloatLegendre.C94_external"], "note": "The bound is a worst case (compare C92). One point of a grid; arrays and the number of columns are C78. At and near the poles compare C91."},
 {"property": "C95", "status": "proved", "theorems": ["ChaosMagPy.FloatCoord.C95_zenith", "ChaosMagPy.FloatCoord.C95_nan"], "note": "Given the position of the sun as two doubles (sun_position itself is C42 in exact arithmetic, C102 in double precision). Platform cosine and sine within 2^-52, inverse cosine within 2^-51. That NaN does occur for some libraries is not claimed."},
 {"property": "C96", "status": "proved", "theorems": ["ChaosMagPy.FloatCoord.C96_cartesian", "ChaosMagPy.FloatCoord.C96_round_trip", "ChaosMagPy.FloatCoord.C96_longitude"], "note": "Squares are rounded products. Platform cosine and sine within 2^-52, arctan2 within 2^-51; signs of zeros are not modelled."},
 {"property": "C97", "status": "proved", "theorems": ["ChaosMagPy.FloatAzimuth.C97_center_azimuth", "ChaosMagPy.FloatAzimuth.C97_idempotent", "ChaosMagPy.FloatAzimuth.C97_not_kept", "ChaosMagPy.FloatAzimuth.C97_local_time", "ChaosMagPy.FloatAzimuth.C97_local_time_24"], "note": "Compare C40 and C41 for exact arithmetic. fmod is exact by IEEE 754; that its result is a double is proved (fmod_double). The signs of zeros are not modelled."},
 {"property": "C98", "status": "proved", "theorems": ["ChaosMagPy.FloatGeod.C98_together", "ChaosMagPy.FloatGeod.C98_pole", "ChaosMagPy.FloatGeod.C98_pole_400", "ChaosMagPy.FloatGeod.C98_pole_500", "ChaosMagPy.FloatGeod.C98_numbers"], "note": "Makes the documented warning about round-off near the poles precise. C98_numbers assumes relative accuracies of the platform's x**3 (4 ulp) and x**(1/3) (256 ulp), and that the computed cosine is not smaller than 2^-100 in size. Accuracy is C99; overflow is not modelled. The three points at the pole are evaluated step by step; each step is a theorem about all roundings."},
 {"property": "C99", "status": "proved", "theorems": ["ChaosMagPy.FloatGeod.C99_accuracy"], "note": "Closer than 50 km to the axis nothing is claimed (C98 shows NaN on the axis). The platform's functions are within stated bounds, the cosine is not smaller than 2^-100 in size (true for doubles). The default ellipsoid means the doubles nearest to 6378.137 and 6356.752. Overflow is not modelled (none occurs in this range)."},
 {"property": "C100", "status": "proved", "theorems": ["ChaosMagPy.FloatGeod.C100_accuracy", "ChaosMagPy.FloatGeod.C100_round_trip"], "note": "Only the coordinates, not the rotation of vector components. The tangent is within four units in the last place for arguments below pi/2 in size; pow4 (the square of the squared ratio, x**4) within 4/2^52 on [1/2, 1]. The default ellipsoid means the doubles nearest to 6378.137 and 6356.752. Overflow is not modelled (none occurs in this range)."},
 {"property": "C101", "status": "proved", "theorems": ["ChaosMagPy.FloatGeod.C101_geodetic", "ChaosMagPy.FloatGeod.C101_geocentric", "ChaosMagPy.FloatGeod.C101_round_trip", "ChaosMagPy.FloatGeod.C101_pole"], "note": "For one point (shapes: C79). The components are at most M with 2^-90 <= M <= 2^90, so that underflow does not matter; the error is relative to M. The round trip needs the region of C99; the vector is returned relative to the returned colatitude, which differs by up to 1e-8 degrees."},
 {"property": "C102", "status": "proved", "theorems": ["ChaosMagPy.FloatSun.C102_accuracy", "ChaosMagPy.FloatSun.C102_zenith", "ChaosMagPy.FloatSun.C102_zenith_nan"], "note": "For one time (shapes: C42, C79). Time is a double of at most 36525 days (a century) from 2000-01-01, which covers the documented range 1901-2099; np.tan is within 4 ulp for angles below 90 degrees, np.arctan within 2^-51. The specification sunDir (Spec/Sun.lean) states the exact formulas over the real numbers."},
 {"property": "C103", "status": "proved", "theorems": ["ChaosMagPy.FloatBase.C103_gsm", "ChaosMagPy.FloatBase.C103_sm", "ChaosMagPy.FloatBase.C103_mag", "ChaosMagPy.FloatBase.C103_dipole_coeffs", "ChaosMagPy.FloatBase.C103_dipole_angles", "ChaosMagPy.FloatBase.C103_angle", "ChaosMagPy.FloatBase.C103_always"], "note": "For one time and one dipole (shapes: C36, CoordArr). For other dipoles C103_gsm and C103_sm need |cos| <= 0.9 for the angle between dipole axis and sun. The order of np.add.reduce in the norm is left open (three possible orders)."},
 {"property": "C104", "status": "proved", "theorems": ["ChaosMagPy.FloatBase.C104_forward", "ChaosMagPy.FloatBase.C104_inverse", "ChaosMagPy.FloatBase.C104_round_trip", "ChaosMagPy.FloatBase.C104_transform", "ChaosMagPy.FloatBase.C104_gsm", "ChaosMagPy.FloatBase.C104_sm", "ChaosMagPy.FloatBase.C104_transform_mag"], "note": "For one point with the dipole given by three coefficients. The error is stated for the direction (unit vector) and not for the angles, since the azimuth is arbitrary at the poles; for eta from 1e-14 to 1e-5."},
 {"property": "C105", "status": "proved", "theorems": ["ChaosMagPy.FloatBase.C105_forward", "ChaosMagPy.FloatBase.C105_inverse", "ChaosMagPy.FloatBase.C105_poles", "ChaosMagPy.FloatBase.C105_round_trip", "ChaosMagPy.FloatBase.C105_transform", "ChaosMagPy.FloatBase.C105_gsm", "ChaosMagPy.FloatBase.C105_sm", "ChaosMagPy.FloatBase.C105_transform_mag"], "note": "For one point with the dipole given by three coefficients. The inner products of np.matmul are a parameter with an assumed error of 2e-14 for factors up to 2 (met by the rounded sum from left to right, Examples/FloatVectors)."},
 {"property": "C106", "status": "proved", "theorems": ["ChaosMagPy.FloatModel.C106_inside", "ChaosMagPy.FloatModel.C106_linear", "ChaosMagPy.FloatModel.C106_linear_rate", "ChaosMagPy.FloatModel.C106_constant", "ChaosMagPy.FloatModel.C106_off"], "note": "For one time and one point; grids and broadcasting are in the model over the reals (C53)."},
 {"property": "C107", "status": "proved", "theorems": ["ChaosMagPy.FloatModel.C107_spectrum", "ChaosMagPy.FloatModel.C107_constant"], "note": "For one time. Coefficients that do not vanish identically on the piece have a value between 2^-198 and 2^198, and K is at most 2^20."}
]}
