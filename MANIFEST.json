{
 "claims": [
  {
   "property": "C01",
   "status": "proved",
   "theorems": [
    "Verif.Props.c01_slots",
    "Verif.Props.c01_size"
   ],
   "note": ""
  },
  {
   "property": "C02",
   "status": "proved",
   "theorems": [
    "Verif.Props.c02_history",
    "Verif.Props.c02_refinement"
   ],
   "note": ""
  },
  {
   "property": "C03",
   "status": "proved",
   "theorems": [
    "Verif.Props.c03_read",
    "Verif.Props.c03_write"
   ],
   "note": ""
  },
  {
   "property": "C04",
   "status": "partial",
   "theorems": [
    "Verif.Props.c04_actual",
    "Verif.Props.c04_accepted_negative",
    "Verif.Props.c04_vector_constructor",
    "Verif.Props.c04_factory_vector",
    "Verif.Props.c04_constructor_partial",
    "Verif.Props.c04_counterexample",
    "Verif.Props.c04_factory_scalar",
    "Verif.Props.c04_factory_reject"
   ],
   "note": "holds for nmax>=0; the code accepts some negative limits (c04_counterexample)"
  },
  {
   "property": "C05",
   "status": "proved",
   "theorems": [
    "Verif.Props.c05_read",
    "Verif.Props.c05_write",
    "Verif.Props.c05_reject"
   ],
   "note": ""
  },
  {
   "property": "C06",
   "status": "partial",
   "theorems": [
    "Verif.Props.c06_read",
    "Verif.Props.c06_write_partial",
    "Verif.Props.c06_write_actual",
    "Verif.Props.c06_counterexample"
   ],
   "note": "the code demands 2n+1 values even for n>mmax (c06_counterexample); exact behaviour in c06_write_actual"
  },
  {
   "property": "C07",
   "status": "proved",
   "theorems": [
    "Verif.Props.c07_truncation"
   ],
   "note": ""
  },
  {
   "property": "C08",
   "status": "proved",
   "theorems": [
    "Verif.Props.c08_window"
   ],
   "note": ""
  },
  {
   "property": "C09",
   "status": "proved",
   "theorems": [
    "Verif.Props.c09_arith_sets",
    "Verif.Props.c09_arith_number",
    "Verif.Props.c09_arith_number_left",
    "Verif.Props.c09_other"
   ],
   "note": ""
  },
  {
   "property": "C10",
   "status": "partial",
   "theorems": [
    "Verif.Props.c10_actual",
    "Verif.Props.c10_mismatch_partial",
    "Verif.Props.c10_counterexample"
   ],
   "note": "only lengths are compared: (3,0)+(1,1) is accepted (c10_counterexample)"
  },
  {
   "property": "C100",
   "status": "proved",
   "theorems": [
    "Verif.Props.c100_spht",
    "Verif.Props.c100_fresh",
    "Verif.Props.c100_round_trip"
   ],
   "note": "doubles; hypotheses: the accuracy of np.fft.fft2 (and ifft2 for the round trip) and of the C library's cos and sin; nothing is assumed of the convolution"
  },
  {
   "property": "C101",
   "status": "proved",
   "theorems": [
    "Verif.Props.c101_vspht",
    "Verif.Props.c101_fresh",
    "Verif.Props.c101_round_trip"
   ],
   "note": "doubles; hypotheses as for C100; no limit on mmax for the analysis itself"
  },
  {
   "property": "C102",
   "status": "partial",
   "theorems": [
    "Verif.Props.c102_small",
    "Verif.Props.c102_large",
    "Verif.Props.c102_success",
    "Verif.Props.c102_zero_divisor",
    "Verif.Props.c102_tiny",
    "Verif.Props.c102_tiny_lib",
    "Verif.Props.c102_beyond",
    "Verif.Props.c102_beyond_lib"
   ],
   "note": "doubles; hypotheses: accuracy of cos, sin, x**2; not for |x| < 2^-46 (c102_tiny: wrong j_1) nor |x| > N-1/2, where it is false: sbesselj(3.8729833462074175, 2)[1] is 0.124 instead of 0.148 (c102_beyond); near zeros of j_k (k < |x|) a division by zero can happen (c102_zero_divisor exhibits one for every rounding)"
  },
  {
   "property": "C103",
   "status": "proved",
   "theorems": [
    "Verif.Props.c103_sbessely",
    "Verif.Props.c103_oscillating",
    "Verif.Props.c103_hankel"
   ],
   "note": "doubles; hypotheses: accuracy of cos, sin, x**2, no overflow at order N-1"
  },
  {
   "property": "C104",
   "status": "proved",
   "theorems": [
    "Verif.Props.c104_spht",
    "Verif.Props.c104_vspht",
    "Verif.Props.c104_round_trip",
    "Verif.Props.c104_vround_trip"
   ],
   "note": "doubles, Python routines; hypotheses: accuracy of NumPy's fft, ifft and fft2, 1j**m accurate (PowNear, proved for CPython's algorithm in C105); nmax <= 1000"
  },
  {
   "property": "C105",
   "status": "proved",
   "theorems": [
    "Verif.Props.c105_pow",
    "Verif.Props.c105_ispht",
    "Verif.Props.c105_spht",
    "Verif.Props.c105_example"
   ],
   "note": "models CPython's c_powi and _Py_c_pow; hypotheses: libm's atan2(1,0), sin, cos accurate to 2^-52, hypot(0,1) = pow(1,y) = 1"
  },
  {
   "property": "C106",
   "status": "proved",
   "theorems": [
    "Verif.Props.c106_spht",
    "Verif.Props.c106_kspht",
    "Verif.Props.c106_vspht",
    "Verif.Props.c106_kvspht",
    "Verif.Props.c106_example",
    "Verif.Props.c106_vexample",
    "Verif.Props.fft2_within",
    "Verif.Props.ifft2_within"
   ],
   "note": "constructor, doubling, two-dimensional FFT (row then column passes over NumPy's one-dimensional FFT) and analysis, all rounded; hypotheses: 1-D FFT accuracy, order of np.sum, libm"
  },
  {
   "property": "C107",
   "status": "proved",
   "theorems": [
    "Verif.Props.c107_ispht",
    "Verif.Props.c107_round_trip",
    "Verif.Props.c107_kround_trip",
    "Verif.Props.c107_vispht",
    "Verif.Props.c107_vround_trip",
    "Verif.Props.c107_kvround_trip",
    "Verif.Props.c107_example",
    "Verif.Props.c107_vexample"
   ],
   "note": "C93, C95-C98, C100, C101, C104 with the FFT hypotheses discharged by ifft2_within and fft2_within; the vector round trip assumes the error of vispht is below (N+1)^2 C/5"
  },
  {
   "property": "C108",
   "status": "partial",
   "theorems": [
    "Verif.Props.c108_spht_partial",
    "Verif.Props.c108_vspht_partial",
    "Verif.Props.c108_ispht_partial",
    "Verif.Props.c108_vispht_partial",
    "Verif.Props.c108_defaults",
    "Verif.Props.c108_values",
    "Verif.Props.c108_wrapper",
    "Verif.Props.c108_huge_limits",
    "Verif.Props.c108_counterexample"
   ],
   "note": "holds for Python ints; NumPy integers are refused by the C extension (Python 3) with TypeError in every call the Python routines carry out (c108_counterexample); an int of more than 64 bits reaches C as -1 (c108_huge_limits)"
  },
  {
   "property": "C109",
   "status": "proved",
   "theorems": [
    "Verif.Props.c109_spht",
    "Verif.Props.c109_vspht",
    "Verif.Props.c109_ispht",
    "Verif.Props.c109_vispht",
    "Verif.Props.c109_example"
   ],
   "note": "two runs in conforming environments (Env.OK): limits and shapes equal, values within the sum of the bounds of C106/C107"
  },
  {
   "property": "C11",
   "status": "partial",
   "theorems": [
    "Verif.Props.c11_actual",
    "Verif.Props.c11_arith_modewise",
    "Verif.Props.c11_mismatch_partial",
    "Verif.Props.c11_counterexample"
   ],
   "note": "the length test compares an operand with itself; (0,0) sets broadcast (c11_counterexample)"
  },
  {
   "property": "C110",
   "status": "proved",
   "theorems": [
    "Verif.Props.c110_ispht",
    "Verif.Props.c110_vispht",
    "Verif.Props.c110_spht",
    "Verif.Props.c110_vspht",
    "Verif.Props.c110_kspht",
    "Verif.Props.c110_kvspht",
    "Verif.Props.c110_example",
    "Verif.Props.c110_kexample"
   ],
   "note": "bit equality in the rounded model; the C synthesis up to nmax 2^20, the C analysis up to 2^28 rows plus degrees; the analysis theorems assume that both calls return (C100, C101, C106 say when)"
  },
  {
   "property": "C111",
   "status": "proved",
   "theorems": [
    "Verif.Props.c111_l2_patt",
    "Verif.Props.c111_l2_tpatt",
    "Verif.Props.c111_l2_vcoef",
    "Verif.Props.c111_linf_coef",
    "Verif.Props.c111_linf_patt",
    "Verif.Props.c111_linf_vcoef",
    "Verif.Props.c111_linf_tpatt",
    "Verif.Props.c111_compare",
    "Verif.Props.c111_linf_zero",
    "Verif.Props.c111_linf_patt_zero",
    "Verif.Props.c111_l2_underflow",
    "Verif.Props.c111_example"
   ],
   "note": "hypot and scalar pow are assumed accurate to one unit in the last place; overflow to infinity and the 0/0 of compare_relative on a zero set are outside the model"
  },
  {
   "property": "C112",
   "status": "proved",
   "theorems": [
    "Verif.Props.c112_gradient",
    "Verif.Props.c112_turned",
    "Verif.Props.c112_divergence",
    "Verif.Props.c112_curl",
    "Verif.Props.c112_laplacian",
    "Verif.Props.c112_poisson",
    "Verif.Props.c112_heat"
   ],
   "note": "the operators are specified by their equations in the angles (SurfaceGradient, SurfaceLaplacian, SurfaceDivergence, RadialCurl)"
  },
  {
   "property": "C113",
   "status": "proved",
   "theorems": [
    "Verif.Props.c113_product",
    "Verif.Props.c113_sharp"
   ],
   "note": ""
  },
  {
   "property": "C114",
   "status": "proved",
   "theorems": [
    "Verif.Props.c114_scalar",
    "Verif.Props.c114_transverse"
   ],
   "note": "the real samples of mag2 are handed to ScalarPatternUniform as complex numbers"
  },
  {
   "property": "C115",
   "status": "proved",
   "theorems": [
    "Verif.Props.c115_filter",
    "Verif.Props.c115_transverse"
   ],
   "note": ""
  },
  {
   "property": "C116",
   "status": "proved",
   "theorems": [
    "Verif.Props.c116_resample",
    "Verif.Props.c116_resample_transverse"
   ],
   "note": ""
  },
  {
   "property": "C117",
   "status": "proved",
   "theorems": [
    "Verif.Props.c117_decompose",
    "Verif.Props.c117_free",
    "Verif.Props.c117_samples"
   ],
   "note": ""
  },
  {
   "property": "C118",
   "status": "proved",
   "theorems": [
    "Verif.Props.c118_convolution",
    "Verif.Props.c118_window",
    "Verif.Props.c118_beam"
   ],
   "note": "P_n is the Legendre polynomial by Rodrigues' formula; the integral is Mathlib's iterated interval integral with the weight sin"
  },
  {
   "property": "C119",
   "status": "partial",
   "theorems": [
    "Verif.Props.c119_coef_actual",
    "Verif.Props.c119_coef_iff",
    "Verif.Props.c119_coef_partial",
    "Verif.Props.c119_samples_actual",
    "Verif.Props.c119_settles",
    "Verif.Props.c119_infinite_counterexample",
    "Verif.Props.c119_twice_counterexample"
   ],
   "note": "the claim fails in the code (re + 1j * im): an infinite imaginary part makes the real part NaN, negative zeros lose their sign; exact behaviour and the exact condition for an unchanged entry are proved"
  },
  {
   "property": "C12",
   "status": "partial",
   "theorems": [
    "Verif.Props.c12_coefs_partial",
    "Verif.Props.c12_coefs_counterexample",
    "Verif.Props.c12_patterns_counterexample"
   ],
   "note": "an exception object is returned, not raised"
  },
  {
   "property": "C120",
   "status": "proved",
   "theorems": [
    "Verif.Props.c120_finite",
    "Verif.Props.c120_after_overflow",
    "Verif.Props.c120_overflows",
    "Verif.Props.c120_hankel"
   ],
   "note": "IEEE arithmetic with infinities, NaN and signed zeros; the accuracy of the finite values is C103"
  },
  {
   "property": "C121",
   "status": "partial",
   "theorems": [
    "Verif.Props.c121_coef_actual",
    "Verif.Props.c121_modes_partial",
    "Verif.Props.c121_samples_actual",
    "Verif.Props.c121_wrong_value_counterexample"
   ],
   "note": "holds for every value but one: the one being written can be read with a wrong imaginary part (cut number), and a file cut in its first line is read as zeros with a smaller limit; exact behaviour at every byte proved"
  },
  {
   "property": "C122",
   "status": "proved",
   "theorems": [
    "Verif.Props.c122_threads",
    "Verif.Props.c122_torn_counterexample"
   ],
   "note": "the condition is shown to be necessary: copying a vector set while another thread assigns a mode can give a mixed copy"
  },
  {
   "property": "C123",
   "status": "proved",
   "theorems": [
    "Verif.Props.c123_switch",
    "Verif.Props.c123_threads"
   ],
   "note": "exact arithmetic"
  },
  {
   "property": "C124",
   "status": "proved",
   "theorems": [
    "Verif.Props.c124_drift",
    "Verif.Props.c124_vdrift",
    "Verif.Props.c124_example",
    "Verif.Props.c124_vexample"
   ],
   "note": "same assumptions on libm, FFTs and np.sum as C107"
  },
  {
   "property": "C125",
   "status": "partial",
   "theorems": [
    "Verif.Props.c125_actual",
    "Verif.Props.c125_too_many_partial",
    "Verif.Props.c125_no_break_counterexample",
    "Verif.Props.c125_truncated_counterexample"
   ],
   "note": "exact behaviour proved; the code accepts files with missing lines and with zero or several break lines"
  },
  {
   "property": "C126",
   "status": "proved",
   "theorems": [
    "Verif.Props.c126_read",
    "Verif.Props.c126_outside",
    "Verif.Props.c126_order",
    "Verif.Props.c126_vpatt"
   ],
   "note": ""
  },
  {
   "property": "C127",
   "status": "proved",
   "theorems": [
    "Verif.Props.c127_spht",
    "Verif.Props.c127_vspht",
    "Verif.Props.c127_ispht",
    "Verif.Props.c127_vispht",
    "Verif.Props.c127_new",
    "Verif.Props.c127_newv",
    "Verif.Props.c127_times",
    "Verif.Props.c127_example"
   ],
   "note": "NumPy's 1-D FFTs and np.sum are assumed to commute with multiplication by 1j (Env.Symmetric)"
  },
  {
   "property": "C128",
   "status": "partial",
   "theorems": [
    "Verif.Props.c128_agree",
    "Verif.Props.c128_synth_agree",
    "Verif.Props.c128_doubles",
    "Verif.Props.c128_synth_doubles",
    "Verif.Props.c128_projection",
    "Verif.Props.c128_alias",
    "Verif.Props.c128_errors",
    "Verif.Props.c128_counterexample",
    "Verif.Props.c128_synth"
   ],
   "note": "the agreement and the errors for mmax > nmax and odd sizes are proved; the ValueError for too large limits is not raised (c128_counterexample): spht_slow returns the projections for any nmax (c128_projection), reports orders again for ncols/2 <= mmax < ncols (c128_alias) and raises IndexError for mmax >= ncols (c128_errors); ispht_slow with ncols <= 2 mmax silently leaves orders out (c128_synth)"
  },
  {
   "property": "C129",
   "status": "proved",
   "theorems": [
    "Verif.Props.c129_tp",
    "Verif.Props.c129_documented",
    "Verif.Props.c129_example"
   ],
   "note": "np.exp on the imaginary axis is assumed accurate to 2^-51 (CexpOK), libm as in C105, np.sum adds in any order"
  },
  {
   "property": "C13",
   "status": "proved",
   "theorems": [
    "Verif.Props.c13_power"
   ],
   "note": ""
  },
  {
   "property": "C130",
   "status": "proved",
   "theorems": [
    "Verif.Props.c130_ynnm",
    "Verif.Props.c130_ynunm",
    "Verif.Props.c130_ynunm_overrun",
    "Verif.Props.c130_findq",
    "Verif.Props.c130_sdata",
    "Verif.Props.c130_sdata_boundary",
    "Verif.Props.c130_types",
    "Verif.Props.c130_overflow",
    "Verif.Props.c130_returns",
    "Verif.Props.c130_example"
   ],
   "note": "exact arithmetic with 32-bit ints; outside the stated ranges the theorems say what happens: ynunm writes outside a short array, FindQ(S <= 0) does not return, at len(s) = rows + nmax the two tables may differ in one entry, ints beyond 64 bits end in SystemError after C ran on -1"
  },
  {
   "property": "C131",
   "status": "partial",
   "theorems": [
    "Verif.Props.c131_pattern",
    "Verif.Props.c131_spht",
    "Verif.Props.c131_spht_default",
    "Verif.Props.c131_ispht",
    "Verif.Props.c131_round_trip",
    "Verif.Props.c131_L2",
    "Verif.Props.c131_LInf",
    "Verif.Props.c131_symmetry_hides",
    "Verif.Props.c131_example"
   ],
   "note": "the last clause is false of the code: single_val compares with >=, which is False for NaN, so a pattern of NaN samples has single_val 0.0 and is_symmetric True (c131_symmetry_hides); all other clauses are proved for the Python routines, assuming of NumPy's FFTs that one NaN in the input makes every output NaN (proved for the defining sums, naive_ok); the compiled routines: C132"
  },
  {
   "property": "C132",
   "status": "proved",
   "theorems": [
    "Verif.Props.c132_kiss",
    "Verif.Props.c132_spht",
    "Verif.Props.c132_ispht",
    "Verif.Props.c132_round_trip",
    "Verif.Props.c132_kiss_example",
    "Verif.Props.c132_example"
   ],
   "note": "kiss_fft is modelled in full; of NumPy's fft2 and ifft2 it is assumed that one NaN in the input makes every output NaN (proved for the defining sums, naive_ok)"
  },
  {
   "property": "C133",
   "status": "proved",
   "theorems": [
    "Verif.Props.c133_pattern",
    "Verif.Props.c133_vspht",
    "Verif.Props.c133_vispht",
    "Verif.Props.c133_example"
   ],
   "note": "of NumPy's FFTs it is assumed that one NaN in the input makes every output NaN (proved for the defining sums, naive_ok)"
  },
  {
   "property": "C134",
   "status": "proved",
   "theorems": [
    "Verif.Props.c134_pattern",
    "Verif.Props.c134_kiss",
    "Verif.Props.c134_spht",
    "Verif.Props.c134_ispht",
    "Verif.Props.c134_certificate",
    "Verif.Props.c134_vpattern",
    "Verif.Props.c134_vspht",
    "Verif.Props.c134_vispht",
    "Verif.Props.c134_L2",
    "Verif.Props.c134_LInf",
    "Verif.Props.c134_naive",
    "Verif.Props.c134_example",
    "Verif.Props.c134_vexample"
   ],
   "note": "of NumPy's FFTs it is assumed that one non-finite input makes every output non-finite (proved for the defining sums, c134_naive)"
  },
  {
   "property": "C135",
   "status": "proved",
   "theorems": [
    "Verif.Props.c135_power",
    "Verif.Props.c135_spectrum",
    "Verif.Props.c135_measured",
    "Verif.Props.c135_spht",
    "Verif.Props.c135_kspht",
    "Verif.Props.c135_example"
   ],
   "note": "hypot is assumed accurate to 2^-52 relative above 2^-500 and small below; in c135_spht and c135_kspht the energy of the exact analysis is at most 2^798"
  },
  {
   "property": "C136",
   "status": "proved",
   "theorems": [
    "Verif.Props.c136_round_trip",
    "Verif.Props.c136_kround_trip",
    "Verif.Props.c136_example"
   ],
   "note": "assumptions on FFT, libm and hypot accuracy as in C107 and C135"
  },
  {
   "property": "C137",
   "status": "proved",
   "theorems": [
    "Verif.Props.c137_energy",
    "Verif.Props.c137_parts",
    "Verif.Props.c137_vispht",
    "Verif.Props.c137_vspht",
    "Verif.Props.c137_example"
   ],
   "note": "exact arithmetic"
  },
  {
   "property": "C138",
   "status": "proved",
   "theorems": [
    "Verif.Props.c138_power",
    "Verif.Props.c138_mono",
    "Verif.Props.c138_kmono",
    "Verif.Props.c138_vround_trip",
    "Verif.Props.c138_kvround_trip",
    "Verif.Props.c138_example"
   ],
   "note": "assumptions on FFT, libm and hypot accuracy as in C107 and C135"
  },
  {
   "property": "C139",
   "status": "proved",
   "theorems": [
    "Verif.Props.c139_spectrum",
    "Verif.Props.c139_float",
    "Verif.Props.c139_example"
   ],
   "note": "hypot accuracy assumed as in C135"
  },
  {
   "property": "C14",
   "status": "proved",
   "theorems": [
    "Verif.Props.c14_array2d",
    "Verif.Props.c14_vector"
   ],
   "note": ""
  },
  {
   "property": "C140",
   "status": "proved",
   "theorems": [
    "Verif.Props.c140_window",
    "Verif.Props.c140_spectrum",
    "Verif.Props.c140_vspht",
    "Verif.Props.c140_example"
   ],
   "note": "exact arithmetic"
  },
  {
   "property": "C141",
   "status": "proved",
   "theorems": [
    "Verif.Props.c141_best",
    "Verif.Props.c141_example"
   ],
   "note": "exact arithmetic"
  },
  {
   "property": "C142",
   "status": "proved",
   "theorems": [
    "Verif.Props.c142_best",
    "Verif.Props.c142_example"
   ],
   "note": "exact arithmetic"
  },
  {
   "property": "C143",
   "status": "proved",
   "theorems": [
    "Verif.Props.c143_near_best",
    "Verif.Props.c143_example"
   ],
   "note": "exact arithmetic"
  },
  {
   "property": "C144",
   "status": "proved",
   "theorems": [
    "Verif.Props.c144_near_best",
    "Verif.Props.c144_example"
   ],
   "note": "exact arithmetic"
  },
  {
   "property": "C145",
   "status": "proved",
   "theorems": [
    "Verif.Props.c145_truncate",
    "Verif.Props.c145_example"
   ],
   "note": "exact arithmetic"
  },
  {
   "property": "C15",
   "status": "proved",
   "theorems": [
    "Verif.Props.c15_no_monopole"
   ],
   "note": "over VectorCoefs operations; direct writes to vc.scoef1 are outside"
  },
  {
   "property": "C16",
   "status": "proved",
   "theorems": [
    "Verif.Props.c16_no_sharing",
    "Verif.Props.c16_independent",
    "Verif.Props.c16_constructor_shares",
    "Verif.Props.c16_vector_constructor_writes"
   ],
   "note": "programs over factories, pattern constructors, copy, arithmetic, truncation, transforms and in-place changes; the class constructors themselves do share the caller's arrays (c16_constructor_shares)"
  },
  {
   "property": "C17",
   "status": "partial",
   "theorems": [
    "Verif.Props.c17_triangle",
    "Verif.Props.c17_homogeneous",
    "Verif.Props.c17_l2_scalar_partial",
    "Verif.Props.c17_l2_vector_actual",
    "Verif.Props.c17_counterexample"
   ],
   "note": "L2_coef of vector sets uses the first component twice (c17_counterexample)"
  },
  {
   "property": "C18",
   "status": "partial",
   "theorems": [
    "Verif.Props.c18_mag2_actual",
    "Verif.Props.c18_mag_coefs_partial",
    "Verif.Props.c18_mag_patterns",
    "Verif.Props.c18_counterexample"
   ],
   "note": "mag2(ScalarCoefs) returns the magnitude, not its square (c18_counterexample)"
  },
  {
   "property": "C19",
   "status": "proved",
   "theorems": [
    "Verif.Props.c19_pretty"
   ],
   "note": ""
  },
  {
   "property": "C20",
   "status": "proved",
   "theorems": [
    "Verif.Props.c20_symmetric",
    "Verif.Props.c20_idempotent",
    "Verif.Props.c20_odd_columns_counterexample"
   ],
   "note": ""
  },
  {
   "property": "C21",
   "status": "proved",
   "theorems": [
    "Verif.Props.c21_scalar",
    "Verif.Props.c21_transverse",
    "Verif.Props.c21_stored_symmetric"
   ],
   "note": ""
  },
  {
   "property": "C22",
   "status": "partial",
   "theorems": [
    "Verif.Props.c22_scalar",
    "Verif.Props.c22_transverse_partial",
    "Verif.Props.c22_transverse_actual",
    "Verif.Props.c22_counterexample"
   ],
   "note": "transverse _tdsphere returns the theta component twice"
  },
  {
   "property": "C23",
   "status": "partial",
   "theorems": [
    "Verif.Props.c23_scalar",
    "Verif.Props.c23_transverse_partial",
    "Verif.Props.c23_transverse_pointwise",
    "Verif.Props.c23_counterexample"
   ],
   "note": "transverse product / addition of a constant breaks antisymmetry"
  },
  {
   "property": "C24",
   "status": "partial",
   "theorems": [
    "Verif.Props.c24_reject",
    "Verif.Props.c24_scalar",
    "Verif.Props.c24_vector_partial",
    "Verif.Props.c24_counterexample"
   ],
   "note": "ones vector patterns are not antisymmetric"
  },
  {
   "property": "C25",
   "status": "proved",
   "theorems": [
    "Verif.Props.c25_python",
    "Verif.Props.c25_python_diverges",
    "Verif.Props.c25_c"
   ],
   "note": ""
  },
  {
   "property": "C26",
   "status": "proved",
   "theorems": [
    "Verif.Props.c26_ynunm",
    "Verif.Props.c26_no_mode",
    "Verif.Props.c26_orthonormal"
   ],
   "note": ""
  },
  {
   "property": "C27",
   "status": "proved",
   "theorems": [
    "Verif.Props.c27_hkm"
   ],
   "note": ""
  },
  {
   "property": "C28",
   "status": "proved",
   "theorems": [
    "Verif.Props.c28_fc_to_sc",
    "Verif.Props.c28_sc_to_fc",
    "Verif.Props.c28_spht",
    "Verif.Props.c28_spht_slow",
    "Verif.Props.c28_ispht",
    "Verif.Props.c28_ispht_slow",
    "Verif.Props.c28_vspht",
    "Verif.Props.c28_vispht"
   ],
   "note": "on the argument domain where the transforms are defined in both backends (C29 gives the two exceptions)"
  },
  {
   "property": "C29",
   "status": "partial",
   "theorems": [
    "Verif.Props.c29_spht",
    "Verif.Props.c29_ispht",
    "Verif.Props.c29_vspht",
    "Verif.Props.c29_vispht",
    "Verif.Props.c29_spht_iff",
    "Verif.Props.c29_vspht_iff",
    "Verif.Props.c29_ispht_iff",
    "Verif.Props.c29_spht_counterexample",
    "Verif.Props.c29_ispht_counterexample"
   ],
   "note": "exactly these accepted calls leave the buffers: spht/vspht with both limits negative and a non-negative vector length (c29_spht_iff, c29_vspht_iff), ispht of a one-coefficient set on one row (c29_ispht_iff); vispht never (c29_vispht)"
  },
  {
   "property": "C30",
   "status": "proved",
   "theorems": [
    "Verif.Props.c30_ispht",
    "Verif.Props.c30_defaults"
   ],
   "note": "exact arithmetic"
  },
  {
   "property": "C31",
   "status": "proved",
   "theorems": [
    "Verif.Props.c31_projection",
    "Verif.Props.c31_interpolant_unique",
    "Verif.Props.c31_sampled"
   ],
   "note": "exact arithmetic; mmax >= 0"
  },
  {
   "property": "C32",
   "status": "proved",
   "theorems": [
    "Verif.Props.c32_round_trip"
   ],
   "note": "exact arithmetic"
  },
  {
   "property": "C33",
   "status": "proved",
   "theorems": [
    "Verif.Props.c33_round_trip",
    "Verif.Props.c33_with_monopoles"
   ],
   "note": "exact arithmetic"
  },
  {
   "property": "C34",
   "status": "proved",
   "theorems": [
    "Verif.Props.c34_spht",
    "Verif.Props.c34_ispht",
    "Verif.Props.c34_vspht",
    "Verif.Props.c34_vispht"
   ],
   "note": "exact arithmetic; no symmetry assumption"
  },
  {
   "property": "C35",
   "status": "partial",
   "theorems": [
    "Verif.Props.c35_accepts",
    "Verif.Props.c35_rejects",
    "Verif.Props.c35_iff",
    "Verif.Props.c35_defaults",
    "Verif.Props.c35_documented_defaults_counterexample",
    "Verif.Props.c35_negative_counterexample",
    "Verif.Props.c35_vspht_accepts",
    "Verif.Props.c35_vspht_rejects",
    "Verif.Props.c35_vspht_iff",
    "Verif.Props.c35_vspht_defaults"
   ],
   "note": "exact for mmax >= 0; the documented defaults are not the ones used"
  },
  {
   "property": "C36",
   "status": "partial",
   "theorems": [
    "Verif.Props.c36_rejects",
    "Verif.Props.c36_accepts",
    "Verif.Props.c36_iff_partial",
    "Verif.Props.c36_counterexample",
    "Verif.Props.c36_wrong_values",
    "Verif.Props.c36_actual",
    "Verif.Props.c36_correct_iff",
    "Verif.Props.c36_vispht"
   ],
   "note": "ispht accepts nrows = nmax+1; the pattern it then returns is given exactly (c36_actual) and is right iff every top-degree coefficient is 0 (c36_correct_iff); vispht exact"
  },
  {
   "property": "C37",
   "status": "proved",
   "theorems": [
    "Verif.Props.c37_ispht",
    "Verif.Props.c37_vispht"
   ],
   "note": ""
  },
  {
   "property": "C38",
   "status": "proved",
   "theorems": [
    "Verif.Props.c38_truncation",
    "Verif.Props.c38_vspht"
   ],
   "note": ""
  },
  {
   "property": "C39",
   "status": "proved",
   "theorems": [
    "Verif.Props.c39_parseval"
   ],
   "note": ""
  },
  {
   "property": "C40",
   "status": "partial",
   "theorems": [
    "Verif.Props.c40_partial",
    "Verif.Props.c40_actual",
    "Verif.Props.c40_counterexample",
    "Verif.Props.c40_too_many_columns"
   ],
   "note": "the phi grid always has 50 points: correct only for ncols = 50, IndexError above, wrong grid below"
  },
  {
   "property": "C41",
   "status": "proved",
   "theorems": [
    "Verif.Props.c41_dtheta",
    "Verif.Props.c41_dphi",
    "Verif.Props.c41_sin",
    "Verif.Props.c41_divsin_sin",
    "Verif.Props.c41_divsin",
    "Verif.Props.c41_sinLdot",
    "Verif.Props.c41_L",
    "Verif.Props.c41_fix",
    "Verif.Props.c41_pad"
   ],
   "note": "exact arithmetic"
  },
  {
   "property": "C42",
   "status": "proved",
   "theorems": [
    "Verif.Props.c42_coef_round_trip",
    "Verif.Props.c42_doubles",
    "Verif.floatText_roundTrips"
   ],
   "note": "finite doubles; printing and parsing of numbers modelled and proved to round-trip"
  },
  {
   "property": "C43",
   "status": "proved",
   "theorems": [
    "Verif.Props.c43_patt_round_trip",
    "Verif.Props.c43_doubles",
    "Verif.Props.c43_actual",
    "Verif.Props.c43_vpatt_round_trip"
   ],
   "note": "finite doubles"
  },
  {
   "property": "C44",
   "status": "partial",
   "theorems": [
    "Verif.Props.c44_actual",
    "Verif.Props.c44_too_many_partial",
    "Verif.Props.c44_truncated_counterexample"
   ],
   "note": "too many lines are rejected (IndexError); a file cut short loads silently with zeros (c44_truncated_counterexample); exact behaviour in c44_actual"
  },
  {
   "property": "C45",
   "status": "partial",
   "theorems": [
    "Verif.Props.c45_sbessely_partial",
    "Verif.Props.c45_counterexample"
   ],
   "note": "proved for N >= 2; N = 1 raises IndexError (c45_counterexample); exact arithmetic"
  },
  {
   "property": "C46",
   "status": "partial",
   "theorems": [
    "Verif.Props.c46_recurrence",
    "Verif.Props.c46_terminates",
    "Verif.Props.c46_never_hangs",
    "Verif.Props.c46_accuracy",
    "Verif.Props.c46_error",
    "Verif.Props.c46_cross_product",
    "Verif.Props.c46_no_pole",
    "Verif.Props.c46_hankel",
    "Verif.Props.c46_zero",
    "Verif.Props.c46_one"
   ],
   "note": "exact arithmetic; N >= 2 and x != 0 (x = 0 and N = 1 raise); accuracy for |x| <= N-1/2; for larger |x| it returns or raises ZeroDivisionError unless x is an exact zero of j_{N-1} or j_{N-2}; divisions by zero in the downward pass are excluded (NoPole)"
  },
  {
   "property": "C47",
   "status": "proved",
   "theorems": [
    "Verif.Props.c47_kiss_dft",
    "Verif.Props.c47_kiss_is_numpy_fft"
   ],
   "note": "exact arithmetic; int range"
  },
  {
   "property": "C48",
   "status": "proved",
   "theorems": [
    "Verif.Props.c48_factor_buffer"
   ],
   "note": ""
  },
  {
   "property": "C49",
   "status": "partial",
   "theorems": [
    "Verif.Props.c49_partial",
    "Verif.Props.c49_exact",
    "Verif.Props.c49_counterexample",
    "Verif.Props.c49_shipped",
    "Verif.Props.c49_same_results"
   ],
   "note": "JSON false etc. select Python; the shipped flag is a string and every non-empty string, also \"False\", selects the C extension (c49_counterexample); exact behaviour in c49_exact"
  },
  {
   "property": "C50",
   "status": "proved",
   "theorems": [
    "Verif.Props.c50_vispht",
    "Verif.Props.c50_defaults"
   ],
   "note": "exact arithmetic"
  },
  {
   "property": "C51",
   "status": "proved",
   "theorems": [
    "Verif.Props.c51_projection"
   ],
   "note": "exact arithmetic"
  },
  {
   "property": "C52",
   "status": "proved",
   "theorems": [
    "Verif.Props.c52_load_vcoef"
   ],
   "note": ""
  },
  {
   "property": "C53",
   "status": "partial",
   "theorems": [
    "Verif.Props.c53_spht",
    "Verif.Props.c53_ispht",
    "Verif.Props.c53_fdata",
    "Verif.Props.c53_vispht",
    "Verif.Props.c53_vspht_partial",
    "Verif.Props.c53_vspht_counterexample",
    "Verif.Props.c53_self_consistent"
   ],
   "note": "verify_vspht's L2 entry does not see the second component (c53_vspht_counterexample); everything else holds; exact arithmetic"
  },
  {
   "property": "C54",
   "status": "proved",
   "theorems": [
    "Verif.Props.c54_arguments_unchanged",
    "Verif.Props.c16_no_sharing"
   ],
   "note": ""
  },
  {
   "property": "C55",
   "status": "proved",
   "theorems": [
    "Verif.Props.c55_linf_scalar",
    "Verif.Props.c55_linf_vector"
   ],
   "note": ""
  },
  {
   "property": "C56",
   "status": "proved",
   "theorems": [
    "Verif.Props.c56_l2_scalar",
    "Verif.Props.c56_linf_scalar",
    "Verif.Props.c56_transverse"
   ],
   "note": ""
  },
  {
   "property": "C57",
   "status": "proved",
   "theorems": [
    "Verif.Props.c57_compare_relative"
   ],
   "note": "exact arithmetic; the float division of the two sums is the last step and is not modelled (pair of numerator and denominator)"
  },
  {
   "property": "C58",
   "status": "proved",
   "theorems": [
    "Verif.Props.c58_read",
    "Verif.Props.c58_write",
    "Verif.Props.c58_vector_read",
    "Verif.Props.c58_vector_write"
   ],
   "note": ""
  },
  {
   "property": "C59",
   "status": "proved",
   "theorems": [
    "Verif.Props.c59_read",
    "Verif.Props.c59_write",
    "Verif.Props.c59_history",
    "Verif.Props.c59_column",
    "Verif.Props.c59_row",
    "Verif.Props.c59_truncation"
   ],
   "note": ""
  },
  {
   "property": "C60",
   "status": "proved",
   "theorems": [
    "Verif.Props.c60_number",
    "Verif.Props.c60_number_left",
    "Verif.Props.c60_other"
   ],
   "note": "exact arithmetic"
  },
  {
   "property": "C61",
   "status": "proved",
   "theorems": [
    "Verif.Props.c61_scalar",
    "Verif.Props.c61_vector"
   ],
   "note": ""
  },
  {
   "property": "C62",
   "status": "proved",
   "theorems": [
    "Verif.Props.c62_mag_on_sphere",
    "Verif.Props.c62_scalar",
    "Verif.Props.c62_transverse",
    "Verif.Props.c62_import_error",
    "Verif.Props.c62_simple_plot"
   ],
   "note": "exact arithmetic; matplotlib's drawing of the arrays handed to it is not modelled"
  },
  {
   "property": "C63",
   "status": "proved",
   "theorems": [
    "Verif.Props.c63_pcolor"
   ],
   "note": "exact arithmetic"
  },
  {
   "property": "C64",
   "status": "proved",
   "theorems": [
    "Verif.Props.c64_plot_coefs",
    "Verif.Props.c64_vector",
    "Verif.Props.c64_vector_kinds"
   ],
   "note": "exact arithmetic"
  },
  {
   "property": "C65",
   "status": "proved",
   "theorems": [
    "Verif.Props.c65_symmetric",
    "Verif.Props.c65_scalar",
    "Verif.Props.c65_transverse",
    "Verif.Props.c65_tiny_counterexample",
    "Verif.Props.isRounding_exists"
   ],
   "note": "rounded double arithmetic; c65_tiny_counterexample shows that the 2^-500 bound is needed (pole samples of size 2^-600 are doubled)"
  },
  {
   "property": "C66",
   "status": "proved",
   "theorems": [
    "Verif.Props.c66_arrays",
    "Verif.Props.c66_sum",
    "Verif.Props.c66_cross",
    "Verif.Props.c66_cross_small"
   ],
   "note": "exact arithmetic"
  },
  {
   "property": "C67",
   "status": "proved",
   "theorems": [
    "Verif.Props.c67_scalar",
    "Verif.Props.c67_vector",
    "Verif.Props.c67_rejects",
    "Verif.Props.c67_deterministic"
   ],
   "note": "exact arithmetic; the random generator is an arbitrary stream"
  },
  {
   "property": "C68",
   "status": "proved",
   "theorems": [
    "Verif.Props.c68_str",
    "Verif.Props.c68_repr",
    "Verif.Props.c68_str_injective",
    "Verif.Props.c68_vector_repr",
    "Verif.Props.c68_vector_counterexample",
    "Verif.Props.c68_dispatch",
    "Verif.Props.c68_values",
    "Verif.Props.c68_reshape"
   ],
   "note": "repr of a single number is a parameter; vector sets print their limits only (c68_vector_counterexample)"
  },
  {
   "property": "C69",
   "status": "proved",
   "theorems": [
    "Verif.Props.c69_rotation"
   ],
   "note": "exact arithmetic"
  },
  {
   "property": "C70",
   "status": "proved",
   "theorems": [
    "Verif.Props.c70_conjugate",
    "Verif.Props.c70_real",
    "Verif.Props.c70_real_synthesis"
   ],
   "note": "exact arithmetic"
  },
  {
   "property": "C71",
   "status": "proved",
   "theorems": [
    "Verif.Props.c71_reflection",
    "Verif.Props.c71_antipodal"
   ],
   "note": "exact arithmetic"
  },
  {
   "property": "C72",
   "status": "proved",
   "theorems": [
    "Verif.Props.c72_rotation"
   ],
   "note": "exact arithmetic"
  },
  {
   "property": "C73",
   "status": "proved",
   "theorems": [
    "Verif.Props.c73_duality"
   ],
   "note": "exact arithmetic"
  },
  {
   "property": "C74",
   "status": "proved",
   "theorems": [
    "Verif.Props.c74_conjugate",
    "Verif.Props.c74_real",
    "Verif.Props.c74_reflection"
   ],
   "note": "exact arithmetic"
  },
  {
   "property": "C75",
   "status": "proved",
   "theorems": [
    "Verif.Props.c75_bounded",
    "Verif.Props.c75_stable",
    "Verif.Props.c75_noise",
    "Verif.Props.c75_any"
   ],
   "note": "exact arithmetic; patterns with the double-sphere symmetry (C37); c75_any: without it, with a larger constant"
  },
  {
   "property": "C76",
   "status": "proved",
   "theorems": [
    "Verif.Props.c76_addition",
    "Verif.Props.c76_bounded",
    "Verif.Props.c76_stable"
   ],
   "note": "exact arithmetic"
  },
  {
   "property": "C77",
   "status": "proved",
   "theorems": [
    "Verif.Props.c77_bounded",
    "Verif.Props.c77_stable",
    "Verif.Props.c77_any"
   ],
   "note": "exact arithmetic; transverse patterns with the double-sphere antisymmetry"
  },
  {
   "property": "C78",
   "status": "proved",
   "theorems": [
    "Verif.Props.c78_addition",
    "Verif.Props.c78_bounded",
    "Verif.Props.c78_stable"
   ],
   "note": "exact arithmetic"
  },
  {
   "property": "C79",
   "status": "proved",
   "theorems": [
    "Verif.Props.c79_read",
    "Verif.Props.c79_write",
    "Verif.Props.c79_history"
   ],
   "note": "NumPy basic slicing returns a view"
  },
  {
   "property": "C80",
   "status": "partial",
   "theorems": [
    "Verif.Props.c80_col",
    "Verif.Props.c80_row_actual",
    "Verif.Props.c80_row_partial",
    "Verif.Props.c80_row_counterexample",
    "Verif.Props.c80_window_actual",
    "Verif.Props.c80_window_iff",
    "Verif.Props.c80_window_counterexample"
   ],
   "note": "c[:,k]=c[:,m] always behaves like a copy (c80_col); c[n,:]=c[:,m] behaves like a copy for n <= mmax; for n > mmax it need not (c80_row_counterexample, exact behaviour c80_row_actual); c.window(c[:,0]) multiplies the other columns by the square of column 0 (c80_window_actual; agrees with a copy exactly under the condition of c80_window_iff)"
  },
  {
   "property": "C81",
   "status": "partial",
   "theorems": [
    "Verif.Props.c81_scalar_iff",
    "Verif.Props.c81_transverse_iff",
    "Verif.Props.c81_poke",
    "Verif.Props.c81_counterexample"
   ],
   "note": "the edited samples are shown, but the mirrored half of the stored data keeps the old values: the result is the pattern of the edited samples exactly when no sample off the poles was changed and the pole rows stay symmetric (iff theorems)"
  },
  {
   "property": "C82",
   "status": "partial",
   "theorems": [
    "Verif.Props.c82_type",
    "Verif.Props.c82_ispht",
    "Verif.Props.c82_backends_partial",
    "Verif.Props.c82_counterexample",
    "Verif.Props.c82_vector"
   ],
   "note": "holds when a complex datum took part and the array is contiguous (c82_type says exactly when); abs(c), mag(c), mag2(c) and real or strided user arrays are refused by the C wrapper with TypeError although the Python routines transform them (c82_ispht, c82_counterexample)"
  },
  {
   "property": "C83",
   "status": "proved",
   "theorems": [
    "Verif.Props.c83_spectrum"
   ],
   "note": "exact arithmetic"
  },
  {
   "property": "C84",
   "status": "proved",
   "theorems": [
    "Verif.Props.c84_commute",
    "Verif.Props.c84_cancel",
    "Verif.Props.c84_neutral",
    "Verif.Props.c84_double",
    "Verif.Props.c84_antisymmetric"
   ],
   "note": "rounded arithmetic (IsRounding); no infinities or NaN"
  },
  {
   "property": "C85",
   "status": "proved",
   "theorems": [
    "Verif.Props.c85_power",
    "Verif.Props.c85_l2",
    "Verif.Props.c85_spectrum"
   ],
   "note": "np.abs within 2^-52 relative; any summation order; no overflow or underflow by the range hypothesis"
  },
  {
   "property": "C86",
   "status": "partial",
   "theorems": [
    "Verif.Props.c86_accurate_partial",
    "Verif.Props.c86_table",
    "Verif.Props.c86_degraded",
    "Verif.Props.c86_table_high",
    "Verif.Props.c86_counterexample"
   ],
   "note": "holds up to degree 1000 (c86_accurate_partial); from degree 1079 to 1900 the computed value is at least 2^(n-1078) times too large for every order, because the first loop sticks at the smallest positive double (c86_counterexample); from degree 1001 to 1900 the relative error is at most (6n+5) 2^-52 + 2^(n-1073) (c86_degraded), so the precision is lost gradually between degrees 1030 and 1072; the other entries of the table are the subject of C92"
  },
  {
   "property": "C87",
   "status": "proved",
   "theorems": [
    "Verif.Props.c87_backends",
    "Verif.Props.c87_ynnm"
   ],
   "note": "assumes C evaluates doubles without excess precision or fused multiply-add"
  },
  {
   "property": "C88",
   "status": "proved",
   "theorems": [
    "Verif.Props.c88_ispht",
    "Verif.Props.c88_vispht",
    "Verif.Props.c88_sc_to_fc",
    "Verif.Props.noOverflow_exists",
    "Verif.Props.c88_example"
   ],
   "note": "in rounded arithmetic (NoOverflow: round to nearest, as long as nothing overflows); assumes C evaluates doubles without excess precision or fused multiply-add; beyond order 100 CPython computes 1j**m in polar form, so the backends need not agree in the last bits; the forward transforms use different FFTs and are not bit-identical"
  },
  {
   "property": "C89",
   "status": "proved",
   "theorems": [
    "Verif.Props.c89_spht",
    "Verif.Props.c89_vspht",
    "Verif.Props.c89_ispht",
    "Verif.Props.c89_vispht",
    "Verif.Props.c89_spht_iff",
    "Verif.Props.c89_ispht_iff",
    "Verif.Props.c89_vspht_iff",
    "Verif.Props.c89_vispht_iff",
    "Verif.Props.c89_example",
    "Verif.Props.c89_vexample"
   ],
   "note": "every int expression of csphi.c is range-checked in CInt.lean; rows of the extended array at most 2^29 (above, FindQ itself is not analysed); mmax >= 0; kiss_fft.c's own counters are not re-checked"
  },
  {
   "property": "C90",
   "status": "proved",
   "theorems": [
    "Verif.Props.c90_sampled",
    "Verif.Props.c90_rotation",
    "Verif.Props.c90_spectrum"
   ],
   "note": "exact arithmetic; sampleGrid (Props/Rotation.lean) and pt (Math/Rotation.lean) are the specification of the sampled, rotated function"
  },
  {
   "property": "C91",
   "status": "proved",
   "theorems": [
    "Verif.Props.c91_sampled",
    "Verif.Props.c91_rotation",
    "Verif.Props.c91_spectrum"
   ],
   "note": "exact arithmetic; FieldCoefs, turned, sampleTheta, samplePhi (Props/RotationV.lean) are the specification; field_exists shows that every choice of coefficients belongs to a field"
  },
  {
   "property": "C92",
   "status": "proved",
   "theorems": [
    "Verif.Props.c92_table"
   ],
   "note": "doubles; rounding to nearest of every operation (IsRounding), subnormal results included, no fused operations"
  },
  {
   "property": "C93",
   "status": "proved",
   "theorems": [
    "Verif.Props.c93_ispht"
   ],
   "note": "doubles; the error of np.fft.ifft2 is the parameter delta (FftWithin); with the Python routines 1j**m is assumed within (|m|+4)2^-50 of i^m (PowOK), which C105 proves of CPython's algorithm"
  },
  {
   "property": "C94",
   "status": "proved",
   "theorems": [
    "Verif.Props.c94_spht"
   ],
   "note": "doubles; the errors of np.fft.fft2 and of the fast convolution (NumPy's FFT or kiss_fft) are parameters (Fft2Within, ConvWithin); with the Python routines 1j**m is assumed within (|m|+4)2^-50 of i^m (PowOK), which C105 proves of CPython's algorithm; C doubles without excess precision or fused multiply-add"
  },
  {
   "property": "C95",
   "status": "proved",
   "theorems": [
    "Verif.Props.c95_round_trip",
    "Verif.Props.c75_any"
   ],
   "note": "doubles; the errors of NumPy's FFTs and of the fast convolution are parameters (FftWithin, Fft2Within, ConvWithin)"
  },
  {
   "property": "C96",
   "status": "proved",
   "theorems": [
    "Verif.Props.c96_vispht",
    "Verif.Props.vispht_full"
   ],
   "note": "doubles; the error of NumPy's inverse FFT is a parameter (FftWithin)"
  },
  {
   "property": "C97",
   "status": "proved",
   "theorems": [
    "Verif.Props.c97_vspht"
   ],
   "note": "doubles; the errors of NumPy's FFT and of the fast convolution are parameters (Fft2Within, ConvWithin)"
  },
  {
   "property": "C98",
   "status": "proved",
   "theorems": [
    "Verif.Props.c98_round_trip"
   ],
   "note": "doubles; FFT and convolution errors are parameters as in C96, C97"
  },
  {
   "property": "C99",
   "status": "proved",
   "theorems": [
    "Verif.Props.c99_kiss",
    "Verif.Props.c99_smooth",
    "Verif.Props.c99_sum",
    "Verif.Props.c99_fresh"
   ],
   "note": "doubles; the accuracy of the C library's cos and sin on [-7,7] is a hypothesis (met by correctly rounded ones)"
  }
 ]
}