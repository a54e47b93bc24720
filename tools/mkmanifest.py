#!/usr/bin/env python3
"""Regenerates MANIFEST.json; edit CLAIMS below."""
import json, os
NS = "Verif.Props."
CLAIMS = {
"C01": ("proved", ["c01_slots","c01_size"], ""),
"C02": ("proved", ["c02_history","c02_refinement"], ""),
"C03": ("proved", ["c03_read","c03_write"], ""),
"C04": ("partial", ["c04_actual","c04_accepted_negative","c04_vector_constructor","c04_factory_vector","c04_constructor_partial","c04_counterexample","c04_factory_scalar","c04_factory_reject"], "holds for nmax>=0; the code accepts some negative limits (c04_counterexample)"),
"C05": ("proved", ["c05_read","c05_write","c05_reject"], ""),
"C06": ("partial", ["c06_read","c06_write_partial","c06_write_actual","c06_counterexample"], "the code demands 2n+1 values even for n>mmax (c06_counterexample); exact behaviour in c06_write_actual"),
"C07": ("proved", ["c07_truncation"], ""),
"C08": ("proved", ["c08_window"], ""),
"C09": ("proved", ["c09_arith_sets","c09_arith_number","c09_arith_number_left","c09_other"], ""),
"C10": ("partial", ["c10_actual","c10_mismatch_partial","c10_counterexample"], "only lengths are compared: (3,0)+(1,1) is accepted (c10_counterexample)"),
"C11": ("partial", ["c11_actual","c11_arith_modewise","c11_mismatch_partial","c11_counterexample"], "the length test compares an operand with itself; (0,0) sets broadcast (c11_counterexample)"),
"C12": ("partial", ["c12_coefs_partial","c12_coefs_counterexample","c12_patterns_counterexample"], "an exception object is returned, not raised"),
"C13": ("proved", ["c13_power"], ""),
"C14": ("proved", ["c14_array2d","c14_vector"], ""),
"C15": ("proved", ["c15_no_monopole"], "over VectorCoefs operations; direct writes to vc.scoef1 are outside"),
"C16": ("proved", ["c16_no_sharing","c16_independent","c16_constructor_shares","c16_vector_constructor_writes"], "programs over factories, pattern constructors, copy, arithmetic, truncation, transforms and in-place changes; the class constructors themselves do share the caller's arrays (c16_constructor_shares)"),
"C17": ("partial", ["c17_triangle","c17_homogeneous","c17_l2_scalar_partial","c17_l2_vector_actual","c17_counterexample"], "L2_coef of vector sets uses the first component twice (c17_counterexample)"),
"C18": ("partial", ["c18_mag2_actual","c18_mag_coefs_partial","c18_mag_patterns","c18_counterexample"], "mag2(ScalarCoefs) returns the magnitude, not its square (c18_counterexample)"),
"C19": ("proved", ["c19_pretty"], ""),
"C20": ("proved", ["c20_symmetric","c20_idempotent","c20_odd_columns_counterexample"], ""),
"C21": ("proved", ["c21_scalar","c21_transverse","c21_stored_symmetric"], ""),
"C22": ("partial", ["c22_scalar","c22_transverse_partial","c22_transverse_actual","c22_counterexample"], "transverse _tdsphere returns the theta component twice"),
"C23": ("partial", ["c23_scalar","c23_transverse_partial","c23_transverse_pointwise","c23_counterexample"], "transverse product / addition of a constant breaks antisymmetry"),
"C24": ("partial", ["c24_reject","c24_scalar","c24_vector_partial","c24_counterexample"], "ones vector patterns are not antisymmetric"),
"C25": ("proved", ["c25_python","c25_python_diverges","c25_c"], ""),
"C26": ("proved", ["c26_ynunm","c26_no_mode","c26_orthonormal"], ""),
"C27": ("proved", ["c27_hkm"], ""),
"C28": ("proved", ["c28_fc_to_sc","c28_sc_to_fc","c28_spht","c28_spht_slow","c28_ispht","c28_ispht_slow","c28_vspht","c28_vispht"], "on the argument domain where the transforms are defined in both backends (C29 gives the two exceptions)"),
"C29": ("partial", ["c29_spht","c29_ispht","c29_vspht","c29_vispht","c29_spht_iff","c29_vspht_iff","c29_ispht_iff","c29_spht_counterexample","c29_ispht_counterexample"], "exactly these accepted calls leave the buffers: spht/vspht with both limits negative and a non-negative vector length (c29_spht_iff, c29_vspht_iff), ispht of a one-coefficient set on one row (c29_ispht_iff); vispht never (c29_vispht)"),
"C30": ("proved", ["c30_ispht","c30_defaults"], "exact arithmetic"),
"C31": ("proved", ["c31_projection","c31_interpolant_unique","c31_sampled"], "exact arithmetic; mmax >= 0"),
"C32": ("proved", ["c32_round_trip"], "exact arithmetic"),
"C35": ("partial", ["c35_accepts","c35_rejects","c35_iff","c35_defaults","c35_documented_defaults_counterexample","c35_negative_counterexample","c35_vspht_accepts","c35_vspht_rejects","c35_vspht_iff","c35_vspht_defaults"], "exact for mmax >= 0; the documented defaults are not the ones used"),
"C36": ("partial", ["c36_rejects","c36_accepts","c36_iff_partial","c36_counterexample","c36_wrong_values","c36_actual","c36_correct_iff","c36_vispht"], "ispht accepts nrows = nmax+1; the pattern it then returns is given exactly (c36_actual) and is right iff every top-degree coefficient is 0 (c36_correct_iff); vispht exact"),
"C37": ("proved", ["c37_ispht","c37_vispht"], ""),
"C38": ("proved", ["c38_truncation", "c38_vspht"], ""),
"C39": ("proved", ["c39_parseval"], ""),
"C47": ("proved", ["c47_kiss_dft","c47_kiss_is_numpy_fft"], "exact arithmetic; int range"),
"C48": ("proved", ["c48_factor_buffer"], ""),
"C33": ("proved", ["c33_round_trip","c33_with_monopoles"], "exact arithmetic"),
"C34": ("proved", ["c34_spht","c34_ispht","c34_vspht","c34_vispht"], "exact arithmetic; no symmetry assumption"),
"C40": ("partial", ["c40_partial","c40_actual","c40_counterexample","c40_too_many_columns"], "the phi grid always has 50 points: correct only for ncols = 50, IndexError above, wrong grid below"),
"C41": ("proved", ["c41_dtheta","c41_dphi","c41_sin","c41_divsin_sin","c41_divsin","c41_sinLdot","c41_L","c41_fix","c41_pad"], "exact arithmetic"),
"C45": ("partial", ["c45_sbessely_partial","c45_counterexample"], "proved for N >= 2; N = 1 raises IndexError (c45_counterexample); exact arithmetic"),
"C46": ("partial", ["c46_recurrence","c46_terminates","c46_never_hangs","c46_accuracy","c46_error","c46_cross_product","c46_no_pole","c46_hankel","c46_zero","c46_one"], "exact arithmetic; N >= 2 and x != 0 (x = 0 and N = 1 raise); accuracy for |x| <= N-1/2; for larger |x| it returns or raises ZeroDivisionError unless x is an exact zero of j_{N-1} or j_{N-2}; divisions by zero in the downward pass are excluded (NoPole)"),
"C42": ("proved", ["c42_coef_round_trip","c42_doubles","Verif.floatText_roundTrips"], "finite doubles; printing and parsing of numbers modelled and proved to round-trip"),
"C43": ("proved", ["c43_patt_round_trip","c43_doubles","c43_actual","c43_vpatt_round_trip"], "finite doubles"),
"C44": ("partial", ["c44_actual","c44_too_many_partial","c44_truncated_counterexample"], "too many lines are rejected (IndexError); a file cut short loads silently with zeros (c44_truncated_counterexample); exact behaviour in c44_actual"),
"C49": ("partial", ["c49_partial","c49_exact","c49_counterexample","c49_shipped","c49_same_results"], "JSON false etc. select Python; the shipped flag is a string and every non-empty string, also \"False\", selects the C extension (c49_counterexample); exact behaviour in c49_exact"),
"C52": ("proved", ["c52_load_vcoef"], ""),
"C54": ("proved", ["c54_arguments_unchanged","c16_no_sharing"], ""),
"C55": ("proved", ["c55_linf_scalar","c55_linf_vector"], ""),
"C56": ("proved", ["c56_l2_scalar","c56_linf_scalar","c56_transverse"], ""),
"C57": ("proved", ["c57_compare_relative"], "exact arithmetic; the float division of the two sums is the last step and is not modelled (pair of numerator and denominator)"),
"C53": ("partial", ["c53_spht","c53_ispht","c53_fdata","c53_vispht","c53_vspht_partial","c53_vspht_counterexample","c53_self_consistent"], "verify_vspht's L2 entry does not see the second component (c53_vspht_counterexample); everything else holds; exact arithmetic"),
"C58": ("proved", ["c58_read","c58_write","c58_vector_read","c58_vector_write"], ""),
"C59": ("proved", ["c59_read","c59_write","c59_history","c59_column","c59_row","c59_truncation"], ""),
"C60": ("proved", ["c60_number","c60_number_left","c60_other"], "exact arithmetic"),
"C61": ("proved", ["c61_scalar","c61_vector"], ""),
"C62": ("proved", ["c62_mag_on_sphere","c62_scalar","c62_transverse","c62_import_error","c62_simple_plot"], "exact arithmetic; matplotlib's drawing of the arrays handed to it is not modelled"),
"C63": ("proved", ["c63_pcolor"], "exact arithmetic"),
"C64": ("proved", ["c64_plot_coefs","c64_vector","c64_vector_kinds"], "exact arithmetic"),
"C65": ("proved", ["c65_symmetric","c65_scalar","c65_transverse","c65_tiny_counterexample","isRounding_exists"], "rounded double arithmetic; c65_tiny_counterexample shows that the 2^-500 bound is needed (pole samples of size 2^-600 are doubled)"),
"C66": ("proved", ["c66_arrays","c66_sum","c66_cross","c66_cross_small"], "exact arithmetic"),
"C50": ("proved", ["c50_vispht","c50_defaults"], "exact arithmetic"),
"C51": ("proved", ["c51_projection"], "exact arithmetic"),
"C67": ("proved", ["c67_scalar","c67_vector","c67_rejects","c67_deterministic"], "exact arithmetic; the random generator is an arbitrary stream"),
"C68": ("proved", ["c68_str","c68_repr","c68_str_injective","c68_vector_repr","c68_vector_counterexample","c68_dispatch","c68_values","c68_reshape"], "repr of a single number is a parameter; vector sets print their limits only (c68_vector_counterexample)"),
"C69": ("proved", ["c69_rotation"], "exact arithmetic"),
"C70": ("proved", ["c70_conjugate","c70_real","c70_real_synthesis"], "exact arithmetic"),
"C71": ("proved", ["c71_reflection","c71_antipodal"], "exact arithmetic"),
"C72": ("proved", ["c72_rotation"], "exact arithmetic"),
"C73": ("proved", ["c73_duality"], "exact arithmetic"),
"C74": ("proved", ["c74_conjugate","c74_real","c74_reflection"], "exact arithmetic"),
"C75": ("proved", ["c75_bounded","c75_stable","c75_noise","c75_any"], "exact arithmetic; patterns with the double-sphere symmetry (C37); c75_any: without it, with a larger constant"),
"C76": ("proved", ["c76_addition","c76_bounded","c76_stable"], "exact arithmetic"),
"C77": ("proved", ["c77_bounded","c77_stable","c77_any"], "exact arithmetic; transverse patterns with the double-sphere antisymmetry"),
"C78": ("proved", ["c78_addition","c78_bounded","c78_stable"], "exact arithmetic"),
"C79": ("proved", ["c79_read","c79_write","c79_history"], "NumPy basic slicing returns a view"),
"C80": ("partial", ["c80_col","c80_row_actual","c80_row_partial","c80_row_counterexample","c80_window_actual","c80_window_iff","c80_window_counterexample"], "c[:,k]=c[:,m] always behaves like a copy (c80_col); c[n,:]=c[:,m] behaves like a copy for n <= mmax; for n > mmax it need not (c80_row_counterexample, exact behaviour c80_row_actual); c.window(c[:,0]) multiplies the other columns by the square of column 0 (c80_window_actual; agrees with a copy exactly under the condition of c80_window_iff)"),
"C81": ("partial", ["c81_scalar_iff","c81_transverse_iff","c81_poke","c81_counterexample"], "the edited samples are shown, but the mirrored half of the stored data keeps the old values: the result is the pattern of the edited samples exactly when no sample off the poles was changed and the pole rows stay symmetric (iff theorems)"),
"C82": ("partial", ["c82_type","c82_ispht","c82_backends_partial","c82_counterexample","c82_vector"], "holds when a complex datum took part and the array is contiguous (c82_type says exactly when); abs(c), mag(c), mag2(c) and real or strided user arrays are refused by the C wrapper with TypeError although the Python routines transform them (c82_ispht, c82_counterexample)"),
"C83": ("proved", ["c83_spectrum"], "exact arithmetic"),
"C84": ("proved", ["c84_commute","c84_cancel","c84_neutral","c84_double","c84_antisymmetric"], "rounded arithmetic (IsRounding); no infinities or NaN"),
"C85": ("proved", ["c85_power","c85_l2","c85_spectrum"], "np.abs within 2^-52 relative; any summation order; no overflow or underflow by the range hypothesis"),
"C86": ("partial", ["c86_accurate_partial","c86_table","c86_degraded","c86_table_high","c86_counterexample"], "holds up to degree 1000 (c86_accurate_partial); from degree 1079 to 1900 the computed value is at least 2^(n-1078) times too large for every order, because the first loop sticks at the smallest positive double (c86_counterexample); from degree 1001 to 1900 the relative error is at most (6n+5) 2^-52 + 2^(n-1073) (c86_degraded), so the precision is lost gradually between degrees 1030 and 1072; the other entries of the table are the subject of C92"),
"C87": ("proved", ["c87_backends","c87_ynnm"], "assumes C evaluates doubles without excess precision or fused multiply-add"),
"C88": ("proved", ["c88_ispht","c88_vispht","c88_sc_to_fc","noOverflow_exists","c88_example"], "in rounded arithmetic (NoOverflow: round to nearest, as long as nothing overflows); assumes C evaluates doubles without excess precision or fused multiply-add; beyond order 100 CPython computes 1j**m in polar form, so the backends need not agree in the last bits; the forward transforms use different FFTs and are not bit-identical"),
"C89": ("proved", ["c89_spht","c89_vspht","c89_ispht","c89_vispht","c89_spht_iff","c89_ispht_iff","c89_vspht_iff","c89_vispht_iff","c89_example","c89_vexample"], "every int expression of csphi.c is range-checked in CInt.lean; rows of the extended array at most 2^29 (above, FindQ itself is not analysed); mmax >= 0; kiss_fft.c's own counters are not re-checked"),
"C90": ("proved", ["c90_sampled","c90_rotation","c90_spectrum"], "exact arithmetic; sampleGrid (Props/Rotation.lean) and pt (Math/Rotation.lean) are the specification of the sampled, rotated function"),
"C91": ("proved", ["c91_sampled","c91_rotation","c91_spectrum"], "exact arithmetic; FieldCoefs, turned, sampleTheta, samplePhi (Props/RotationV.lean) are the specification; field_exists shows that every choice of coefficients belongs to a field"),
"C92": ("proved", ["c92_table"], "doubles; rounding to nearest of every operation (IsRounding), subnormal results included, no fused operations"),
"C93": ("proved", ["c93_ispht"], "doubles; the error of np.fft.ifft2 is the parameter delta (FftWithin); with the Python routines 1j**m is assumed within (|m|+4)2^-50 of i^m (PowOK), which C105 proves of CPython's algorithm"),
"C94": ("proved", ["c94_spht"], "doubles; the errors of np.fft.fft2 and of the fast convolution (NumPy's FFT or kiss_fft) are parameters (Fft2Within, ConvWithin); with the Python routines 1j**m is assumed within (|m|+4)2^-50 of i^m (PowOK), which C105 proves of CPython's algorithm; C doubles without excess precision or fused multiply-add"),
"C95": ("proved", ["c95_round_trip", "c75_any"], "doubles; the errors of NumPy's FFTs and of the fast convolution are parameters (FftWithin, Fft2Within, ConvWithin)"),
"C96": ("proved", ["c96_vispht", "vispht_full"], "doubles; the error of NumPy's inverse FFT is a parameter (FftWithin)"),
"C97": ("proved", ["c97_vspht"], "doubles; the errors of NumPy's FFT and of the fast convolution are parameters (Fft2Within, ConvWithin)"),
"C98": ("proved", ["c98_round_trip"], "doubles; FFT and convolution errors are parameters as in C96, C97"),
"C99": ("proved", ["c99_kiss", "c99_smooth", "c99_sum", "c99_fresh"], "doubles; the accuracy of the C library's cos and sin on [-7,7] is a hypothesis (met by correctly rounded ones)"),
"C100": ("proved", ["c100_spht", "c100_fresh", "c100_round_trip"], "doubles; hypotheses: the accuracy of np.fft.fft2 (and ifft2 for the round trip) and of the C library's cos and sin; nothing is assumed of the convolution"),
"C101": ("proved", ["c101_vspht", "c101_fresh", "c101_round_trip"], "doubles; hypotheses as for C100; no limit on mmax for the analysis itself"),
"C102": ("partial", ["c102_small", "c102_large", "c102_success", "c102_zero_divisor", "c102_tiny", "c102_tiny_lib", "c102_beyond", "c102_beyond_lib"], "doubles; hypotheses: accuracy of cos, sin, x**2; not for |x| < 2^-46 (c102_tiny: wrong j_1) nor |x| > N-1/2, where it is false: sbesselj(3.8729833462074175, 2)[1] is 0.124 instead of 0.148 (c102_beyond); near zeros of j_k (k < |x|) a division by zero can happen (c102_zero_divisor exhibits one for every rounding)"),
"C103": ("proved", ["c103_sbessely", "c103_oscillating", "c103_hankel"], "doubles; hypotheses: accuracy of cos, sin, x**2, no overflow at order N-1"),
"C104": ("proved", ["c104_spht", "c104_vspht", "c104_round_trip", "c104_vround_trip"], "doubles, Python routines; hypotheses: accuracy of NumPy's fft, ifft and fft2, 1j**m accurate (PowNear, proved for CPython's algorithm in C105); nmax <= 1000"),
"C105": ("proved", ["c105_pow", "c105_ispht", "c105_spht", "c105_example"], "models CPython's c_powi and _Py_c_pow; hypotheses: libm's atan2(1,0), sin, cos accurate to 2^-52, hypot(0,1) = pow(1,y) = 1"),
"C106": ("proved", ["c106_spht", "c106_kspht", "c106_vspht", "c106_kvspht", "c106_example", "c106_vexample", "fft2_within", "ifft2_within"], "constructor, doubling, two-dimensional FFT (row then column passes over NumPy's one-dimensional FFT) and analysis, all rounded; hypotheses: 1-D FFT accuracy, order of np.sum, libm"),
"C107": ("proved", ["c107_ispht", "c107_round_trip", "c107_kround_trip", "c107_vispht", "c107_vround_trip", "c107_kvround_trip", "c107_example", "c107_vexample"], "C93, C95-C98, C100, C101, C104 with the FFT hypotheses discharged by ifft2_within and fft2_within; the vector round trip assumes the error of vispht is below (N+1)^2 C/5"),
"C108": ("partial", ["c108_spht_partial", "c108_vspht_partial", "c108_ispht_partial", "c108_vispht_partial", "c108_defaults", "c108_values", "c108_wrapper", "c108_huge_limits", "c108_counterexample"], "holds for Python ints; NumPy integers are refused by the C extension (Python 3) with TypeError in every call the Python routines carry out (c108_counterexample); an int of more than 64 bits reaches C as -1 (c108_huge_limits)"),
"C109": ("proved", ["c109_spht", "c109_vspht", "c109_ispht", "c109_vispht", "c109_example"], "two runs in conforming environments (Env.OK): limits and shapes equal, values within the sum of the bounds of C106/C107"),
"C110": ("proved", ["c110_ispht", "c110_vispht", "c110_spht", "c110_vspht", "c110_kspht", "c110_kvspht", "c110_example", "c110_kexample"], "bit equality in the rounded model; the C synthesis up to nmax 2^20, the C analysis up to 2^28 rows plus degrees; the analysis theorems assume that both calls return (C100, C101, C106 say when)"),
"C111": ("proved", ["c111_l2_patt", "c111_l2_tpatt", "c111_l2_vcoef", "c111_linf_coef", "c111_linf_patt", "c111_linf_vcoef", "c111_linf_tpatt", "c111_compare", "c111_linf_zero", "c111_linf_patt_zero", "c111_l2_underflow", "c111_example"], "hypot and scalar pow are assumed accurate to one unit in the last place; overflow to infinity and the 0/0 of compare_relative on a zero set are outside the model"),
"C112": ("proved", ["c112_gradient", "c112_turned", "c112_divergence", "c112_curl", "c112_laplacian", "c112_poisson", "c112_heat"], "the operators are specified by their equations in the angles (SurfaceGradient, SurfaceLaplacian, SurfaceDivergence, RadialCurl)"),
"C113": ("proved", ["c113_product", "c113_sharp"], ""),
"C114": ("proved", ["c114_scalar", "c114_transverse"], "the real samples of mag2 are handed to ScalarPatternUniform as complex numbers"),
"C115": ("proved", ["c115_filter", "c115_transverse"], ""),
"C116": ("proved", ["c116_resample", "c116_resample_transverse"], ""),
"C117": ("proved", ["c117_decompose", "c117_free", "c117_samples"], ""),
"C118": ("proved", ["c118_convolution", "c118_window", "c118_beam"], "P_n is the Legendre polynomial by Rodrigues' formula; the integral is Mathlib's iterated interval integral with the weight sin"),
"C119": ("partial", ["c119_coef_actual", "c119_coef_iff", "c119_coef_partial", "c119_samples_actual", "c119_settles", "c119_infinite_counterexample", "c119_twice_counterexample"], "the claim fails in the code (re + 1j * im): an infinite imaginary part makes the real part NaN, negative zeros lose their sign; exact behaviour and the exact condition for an unchanged entry are proved"),
"C120": ("proved", ["c120_finite", "c120_after_overflow", "c120_overflows", "c120_hankel"], "IEEE arithmetic with infinities, NaN and signed zeros; the accuracy of the finite values is C103"),
"C121": ("partial", ["c121_coef_actual", "c121_modes_partial", "c121_samples_actual", "c121_wrong_value_counterexample"], "holds for every value but one: the one being written can be read with a wrong imaginary part (cut number), and a file cut in its first line is read as zeros with a smaller limit; exact behaviour at every byte proved"),
"C122": ("proved", ["c122_threads", "c122_torn_counterexample"], "the condition is shown to be necessary: copying a vector set while another thread assigns a mode can give a mixed copy"),
"C123": ("proved", ["c123_switch", "c123_threads"], "exact arithmetic"),
"C124": ("proved", ["c124_drift", "c124_vdrift", "c124_example", "c124_vexample"], "same assumptions on libm, FFTs and np.sum as C107"),
"C125": ("partial", ["c125_actual", "c125_too_many_partial", "c125_no_break_counterexample", "c125_truncated_counterexample"], "exact behaviour proved; the code accepts files with missing lines and with zero or several break lines"),
"C126": ("proved", ["c126_read", "c126_outside", "c126_order", "c126_vpatt"], ""),
"C127": ("proved", ["c127_spht", "c127_vspht", "c127_ispht", "c127_vispht", "c127_new", "c127_newv", "c127_times", "c127_example"], "NumPy's 1-D FFTs and np.sum are assumed to commute with multiplication by 1j (Env.Symmetric)"),
"C128": ("partial", ["c128_agree", "c128_synth_agree", "c128_doubles", "c128_synth_doubles", "c128_projection", "c128_alias", "c128_errors", "c128_counterexample", "c128_synth"], "the agreement and the errors for mmax > nmax and odd sizes are proved; the ValueError for too large limits is not raised (c128_counterexample): spht_slow returns the projections for any nmax (c128_projection), reports orders again for ncols/2 <= mmax < ncols (c128_alias) and raises IndexError for mmax >= ncols (c128_errors); ispht_slow with ncols <= 2 mmax silently leaves orders out (c128_synth)"),
"C129": ("proved", ["c129_tp", "c129_documented", "c129_example"], "np.exp on the imaginary axis is assumed accurate to 2^-51 (CexpOK), libm as in C105, np.sum adds in any order"),
"C130": ("proved", ["c130_ynnm", "c130_ynunm", "c130_ynunm_overrun", "c130_findq", "c130_sdata", "c130_sdata_boundary", "c130_types", "c130_overflow", "c130_returns", "c130_example"], "exact arithmetic with 32-bit ints; outside the stated ranges the theorems say what happens: ynunm writes outside a short array, FindQ(S <= 0) does not return, at len(s) = rows + nmax the two tables may differ in one entry, ints beyond 64 bits end in SystemError after C ran on -1"),
"C131": ("partial", ["c131_pattern", "c131_spht", "c131_spht_default", "c131_ispht", "c131_round_trip", "c131_L2", "c131_LInf", "c131_symmetry_hides", "c131_example"], "the last clause is false of the code: single_val compares with >=, which is False for NaN, so a pattern of NaN samples has single_val 0.0 and is_symmetric True (c131_symmetry_hides); all other clauses are proved for the Python routines, assuming of NumPy's FFTs that one NaN in the input makes every output NaN (proved for the defining sums, naive_ok); the compiled routines: C132"),
"C132": ("proved", ["c132_kiss", "c132_spht", "c132_ispht", "c132_round_trip", "c132_kiss_example", "c132_example"], "kiss_fft is modelled in full; of NumPy's fft2 and ifft2 it is assumed that one NaN in the input makes every output NaN (proved for the defining sums, naive_ok)"),
"C133": ("proved", ["c133_pattern", "c133_vspht", "c133_vispht", "c133_example"], "of NumPy's FFTs it is assumed that one NaN in the input makes every output NaN (proved for the defining sums, naive_ok)"),
"C134": ("proved", ["c134_pattern", "c134_kiss", "c134_spht", "c134_ispht", "c134_certificate", "c134_vpattern", "c134_vspht", "c134_vispht", "c134_L2", "c134_LInf", "c134_naive", "c134_example", "c134_vexample"], "of NumPy's FFTs it is assumed that one non-finite input makes every output non-finite (proved for the defining sums, c134_naive)"),
"C135": ("proved", ["c135_power", "c135_spectrum", "c135_measured", "c135_spht", "c135_kspht", "c135_example"], "hypot is assumed accurate to 2^-52 relative above 2^-500 and small below; in c135_spht and c135_kspht the energy of the exact analysis is at most 2^798"),
"C136": ("proved", ["c136_round_trip", "c136_kround_trip", "c136_example"], "assumptions on FFT, libm and hypot accuracy as in C107 and C135"),
"C137": ("proved", ["c137_energy", "c137_parts", "c137_vispht", "c137_vspht", "c137_example"], "exact arithmetic"),
"C138": ("proved", ["c138_power", "c138_mono", "c138_kmono", "c138_vround_trip", "c138_kvround_trip", "c138_example"], "assumptions on FFT, libm and hypot accuracy as in C107 and C135"),
"C139": ("proved", ["c139_spectrum", "c139_float", "c139_example"], "hypot accuracy assumed as in C135"),
"C140": ("proved", ["c140_window", "c140_spectrum", "c140_vspht", "c140_example"], "exact arithmetic"),
"C141": ("proved", ["c141_best", "c141_example"], "exact arithmetic"),
"C142": ("proved", ["c142_best", "c142_example"], "exact arithmetic"),
"C143": ("proved", ["c143_near_best", "c143_example"], "exact arithmetic"),
"C144": ("proved", ["c144_near_best", "c144_example"], "exact arithmetic"),
"C145": ("proved", ["c145_truncate", "c145_example"], "exact arithmetic"),
}
here = os.path.dirname(os.path.dirname(os.path.abspath(__file__)))
out = {"claims": [{"property": k, "status": s, "theorems": [t if "." in t else NS + t for t in th], "note": n}
                  for k, (s, th, n) in sorted(CLAIMS.items())]}
json.dump(out, open(os.path.join(here, "MANIFEST.json"), "w"), indent=1)
