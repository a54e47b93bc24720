{"id": "C01", "title": "Every mode has its own storage slot", "statement": "In a coefficient set with limits (nmax, mmax) every mode (n, m) with 0<=n<=nmax, |m|<=n, |m|<=mmax has exactly one slot of the coefficient vector, no two modes share a slot, and every slot belongs to a mode; so c.size is exactly the number of modes.", "quantifier": "all 0 <= mmax <= nmax and all modes", "why_tests_cant": "the layout formula must be injective and onto for every (nmax, mmax); tests sample one size", "anchors": ["spherepy/pysphi.py: mindx", "spherepy/spherepy.py: ScalarCoefs.size, ScalarCoefs.__getitem__"]}
{"id": "C02", "title": "Coefficient sets behave like a map from modes to values", "statement": "After any sequence of assignments c[n,m]=v (valid or rejected), reading c[n,m] returns the last value successfully assigned to that mode, or its initial value if none was; no assignment disturbs another mode, nmax, mmax or size.", "quantifier": "all coefficient sets, all finite histories of single-mode assignments, all element types", "why_tests_cant": "needs all histories; a test exercises one history", "anchors": ["spherepy/spherepy.py: ScalarCoefs.__setitem__, ScalarCoefs.__getitem__"]}
{"id": "C03", "title": "Out-of-range modes are rejected, in-range modes never are", "statement": "c[n,m] (read or write) raises AttributeError exactly when n<0, n>nmax, |m|>n or |m|>mmax; otherwise it succeeds, and a rejected write changes nothing. It never raises IndexError or silently touches another slot through negative indexing.", "quantifier": "all coefficient sets, all integers n, m", "why_tests_cant": "unbounded index space including negatives", "anchors": ["spherepy/spherepy.py: ScalarCoefs.__getitem__, ScalarCoefs.__setitem__", "spherepy/pysphi.py: mindx"]}
{"id": "C04", "title": "The constructor accepts exactly well-formed coefficient sets", "statement": "ScalarCoefs(vec, nmax, mmax) succeeds iff 0 <= mmax <= nmax and len(vec) is the number of modes; otherwise it raises ValueError.", "quantifier": "all vectors and all integers nmax, mmax (including negative ones)", "why_tests_cant": "all integers", "anchors": ["spherepy/spherepy.py: ScalarCoefs.__init__, VectorCoefs.__init__, zeros_coefs"]}
{"id": "C05", "title": "Column slices c[:,m]", "statement": "c[:,m] lists c[|m|,m], ..., c[nmax,m] in order; c[:,m]=v sets exactly these modes when v has length nmax-|m|+1 and raises AttributeError, changing nothing, otherwise (also when |m|>mmax).", "quantifier": "all coefficient sets, all m, all vectors", "why_tests_cant": "all sizes and all m", "anchors": ["spherepy/spherepy.py: ScalarCoefs.__getitem__, ScalarCoefs.__setitem__"]}
{"id": "C06", "title": "Row slices c[n,:]", "statement": "c[n,:] lists c[n,-k], ..., c[n,k], k=min(n,mmax); assigning a list of the same length back to c[n,:] stores it mode by mode, so c[n,:] = c[n,:] is always accepted and is a no-op.", "quantifier": "all coefficient sets, all n, all vectors", "why_tests_cant": "rows with n > mmax are a boundary class that tests do not reach", "anchors": ["spherepy/spherepy.py: ScalarCoefs.__getitem__, ScalarCoefs.__setitem__"]}
{"id": "C07", "title": "Truncation c[0:k,:]", "statement": "For 0<=k<=nmax, c[0:k,:] is a well-formed coefficient set with nmax=k and mmax=min(k, mmax) whose every mode equals the same mode of c; for k>nmax it raises AttributeError; c is unchanged.", "quantifier": "all coefficient sets and all k", "why_tests_cant": "block copies between two layouts for all pairs of sizes", "anchors": ["spherepy/spherepy.py: ScalarCoefs.__getitem__ (slice, slice)"]}
{"id": "C08", "title": "window scales each degree", "statement": "c.window(vec) with len(vec)=nmax+1 multiplies every c[n,m] by vec[n], changes nothing else and never raises.", "quantifier": "all coefficient sets and windows, all element types", "why_tests_cant": "all sizes; loop over +-m columns with shifted windows", "anchors": ["spherepy/spherepy.py: ScalarCoefs.window"]}
{"id": "C09", "title": "Coefficient arithmetic is mode-wise", "statement": "For coefficient sets a, b with equal (nmax, mmax), (a op b)[n,m] = a[n,m] op b[n,m] for op in +,-,*,/ and for numbers on either side (division by the number 0 excluded); nmax and mmax are preserved and operands are unchanged.", "quantifier": "all coefficient sets, all numbers, all modes, all four operators", "why_tests_cant": "all sizes and operators", "anchors": ["spherepy/spherepy.py: ScalarCoefs._scalar_coef_op_left, _scalar_coef_op_right"]}
{"id": "C10", "title": "Combining differently-shaped scalar coefficient sets is rejected", "statement": "a op b raises ValueError whenever a and b are ScalarCoefs with different (nmax, mmax).", "quantifier": "all pairs of coefficient sets", "why_tests_cant": "requires that no two different shapes pass the check; tests try one pair", "anchors": ["spherepy/spherepy.py: ScalarCoefs._scalar_coef_op_left"]}
{"id": "C11", "title": "Combining differently-shaped vector coefficient sets is rejected", "statement": "a op b raises ValueError whenever a and b are VectorCoefs with different (nmax, mmax), and is mode-wise on both components when the shapes agree.", "quantifier": "all pairs of vector coefficient sets", "why_tests_cant": "the length check in the code compares an object with itself; only some sizes expose it", "anchors": ["spherepy/spherepy.py: VectorCoefs._vector_coef_op_left"]}
{"id": "C12", "title": "Division by the number zero is reported as ZeroDivisionError", "statement": "Dividing a coefficient set or a pattern by the number 0 raises ZeroDivisionError and produces no object.", "quantifier": "all coefficient sets and patterns", "why_tests_cant": "error path for all objects", "anchors": ["spherepy/spherepy.py: ScalarCoefs.__truediv__, VectorCoefs.__truediv__, ScalarPatternUniform.__truediv__, TransversePatternUniform.__truediv__"]}
{"id": "C13", "title": "Power spectrum adds up to the power", "statement": "angular_power_spectrum()[n] is the sum over |m|<=min(n,mmax) of |c[n,m]|^2 and the spectrum sums to power().", "quantifier": "all coefficient sets (exact arithmetic)", "why_tests_cant": "re-grouping of all slots for all sizes", "anchors": ["spherepy/spherepy.py: ScalarCoefs.angular_power_spectrum, ScalarCoefs.power, ScalarCoefs._reshape_m_vecs"]}
{"id": "C14", "title": "2-D representation of coefficients", "statement": "The array handed to the plotting routines has shape (nmax+1, 2*mmax+1), holds c[n,m] at [n, mmax+m] for each mode and 0 elsewhere.", "quantifier": "all coefficient sets and all cells", "why_tests_cant": "all sizes", "anchors": ["spherepy/spherepy.py: ScalarCoefs._array_2d_repr, ScalarCoefs._reshape_n_vecs"]}
{"id": "C15", "title": "Vector coefficients never carry a monopole", "statement": "Through any history of VectorCoefs construction, assignment, arithmetic and truncation the (0,0) entries of both components stay 0, and reading or writing a mode with n=0 raises AttributeError.", "quantifier": "all histories of VectorCoefs operations", "why_tests_cant": "invariant over all histories", "anchors": ["spherepy/spherepy.py: VectorCoefs.__init__, VectorCoefs.__setitem__, VectorCoefs.__getitem__, VectorCoefs._vector_coef_op_left"]}
{"id": "C16", "title": "Objects do not share state behind the user's back", "statement": "Objects returned by factories, copy(), arithmetic and c[0:k,:] are independent: no later mutation (assignment, slice assignment, window) of one is visible through another, for any program built from these operations.", "quantifier": "all programs (finite histories) over any number of coefficient objects", "why_tests_cant": "aliasing is a property of all histories", "anchors": ["spherepy/spherepy.py: ScalarCoefs.copy, ScalarCoefs.__init__, ScalarCoefs.window, ScalarCoefs._scalar_coef_op_left"]}
{"id": "C17", "title": "L2_coef is a norm that sees every coefficient", "statement": "L2_coef(c)^2 is the sum of the squared magnitudes of all coefficients of c (both components for vector sets); in particular L2_coef(c)=0 only if c=0.", "quantifier": "all scalar and vector coefficient sets (exact arithmetic)", "why_tests_cant": "universal statement over coefficients", "anchors": ["spherepy/spherepy.py: L2_coef"]}
{"id": "C18", "title": "mag2 is the squared magnitude", "statement": "mag2(x) is |x|^2 elementwise for scalar patterns, transverse patterns, scalar and vector coefficients, and mag(x)^2 = mag2(x).", "quantifier": "all objects of the four classes (exact arithmetic)", "why_tests_cant": "universal over values", "anchors": ["spherepy/spherepy.py: mag2, mag, abs"]}
{"id": "C19", "title": "pretty_coefs prints each coefficient in its own cell", "statement": "pretty_coefs(c) puts in the cell for (n,m), n<=2, the representation of c[n,m] if |m|<=mmax and a blank otherwise, for every c with nmax>=2.", "quantifier": "all coefficient sets with nmax >= 2", "why_tests_cant": "all mmax/nmax combinations", "anchors": ["spherepy/spherepy.py: pretty_coefs, pretty_display_string"]}
{"id": "C20", "title": "Double-sphere construction gives the symmetry the transform needs", "statement": "double_sphere(d, sym) with an even number of columns returns data D with D[n,m] = sym*D[-n mod rows, m+cols/2 mod cols] for all n,m, and applying it again changes nothing.", "quantifier": "all data with even column count, sym=+-1", "why_tests_cant": "all sizes and values incl. zeros (special-cased branch)", "anchors": ["spherepy/spherepy.py: double_sphere, continue_sphere"]}
{"id": "C21", "title": "Patterns keep the user's samples", "statement": "ScalarPatternUniform(cdata) (and each component of TransversePatternUniform) with nrows>=2 rows reports the same nrows, ncols and returns in .array every sample off the poles unchanged; pole rows are unchanged iff they already satisfy the pole symmetry.", "quantifier": "all arrays", "why_tests_cant": "all sizes and values", "anchors": ["spherepy/spherepy.py: ScalarPatternUniform.__init__, continue_sphere, ScalarPatternUniform.array, TransversePatternUniform"]}
{"id": "C22", "title": "single_val detects every asymmetry", "statement": "single_val is 0 iff the double-sphere data is exactly symmetric (scalar: +1, each transverse component: -1); is_symmetric is True for such data.", "quantifier": "all patterns (exact arithmetic)", "why_tests_cant": "universal over data", "anchors": ["spherepy/spherepy.py: ScalarPatternUniform.single_val, TransversePatternUniform.single_val"]}
{"id": "C23", "title": "Pattern arithmetic preserves symmetry", "statement": "If the operands of +,-,*,/ (pattern-pattern or pattern-number) are symmetric then the result is symmetric and pointwise equal to the operator applied to the samples.", "quantifier": "all patterns, operators and numbers", "why_tests_cant": "universal over data", "anchors": ["spherepy/spherepy.py: ScalarPatternUniform._scalar_pattern_uniform_op_left, TransversePatternUniform._vector_pattern_uniform_op_left"]}
{"id": "C24", "title": "Pattern factories return symmetric patterns of the requested size", "statement": "zeros/ones/random_patt_uniform(nrows, ncols, type) raise ValueError for odd ncols, TypeError for unknown type, and otherwise return a pattern with shape (nrows, ncols) that has the symmetry required by the transforms.", "quantifier": "all sizes >= 2 rows, both types", "why_tests_cant": "all sizes", "anchors": ["spherepy/spherepy.py: zeros_patt_uniform, ones_patt_uniform, random_patt_uniform"]}
{"id": "C25", "title": "FFT length selection terminates with the smallest admissible length", "statement": "smallest_prime_factor(Q) terminates for every Q>=1 and returns the least number >= Q whose prime factors are in {2,3,5,7}; the C routine FindQ does the same for {2,3,5}.", "quantifier": "all Q >= 1", "why_tests_cant": "termination and minimality for all Q", "anchors": ["spherepy/pysphi.py: smallest_prime_factor", "src/csphi.c: FindQ"]}
{"id": "C26", "title": "ynunm returns the Fourier coefficients of the spherical harmonics", "statement": "For all |m|<=n, the array ynunm(n,m,n+1), extended by y[-v]=(-1)^m y[v], satisfies i^m * sum_v y[v] exp(i v theta) = the theta-part of the orthonormal spherical harmonic Y_nm (Condon-Shortley phase).", "quantifier": "all n, m, theta (exact arithmetic)", "why_tests_cant": "an identity between a recurrence and Rodrigues' formula for all n, m", "anchors": ["spherepy/pysphi.py: ynnm, ynunm", "src/csphi.c: ynnm, ynunm"]}
{"id": "C27", "title": "FFT-based hkm equals the exact convolution", "statement": "For every even number of rows, every Nmax and every admissible FFT length, hkm_fc returns h[k] = 4*pi*sum_v f_v*S(k-v), S(j) = -i/j for odd j else 0, for 0<=k<=Nmax, whenever the Nyquist row is 0.", "quantifier": "all data, sizes and FFT lengths (exact arithmetic)", "why_tests_cant": "wrap-around collisions occur only for special sizes", "anchors": ["spherepy/pysphi.py: s_data, hkm_fc"]}
{"id": "C28", "title": "C extension and pure Python agree", "statement": "csphi.fc_to_sc/sc_to_fc and pysphi.fc_to_sc/sc_to_fc compute the same arrays on all inputs the public transforms pass to them; hence spht = spht_slow and ispht = ispht_slow.", "quantifier": "all inputs passing the guards of spht/ispht (exact arithmetic)", "why_tests_cant": "two implementations, all sizes", "anchors": ["src/csphi.c: fc_to_sc, sc_to_fc, bnm_fc, fcvec_m_sc", "spherepy/pysphi.py: fc_to_sc, sc_to_fc", "spherepy/spherepy.py: spht, spht_slow, ispht, ispht_slow"]}
{"id": "C29", "title": "The C extension never touches memory outside its buffers", "statement": "For every call made by spht, vspht, ispht, vispht that passes their argument checks, every array access of the C routines is inside the array.", "quantifier": "all inputs passing the guards", "why_tests_cant": "memory safety for all sizes", "anchors": ["src/csphi.c: fc_to_sc, sc_to_fc, hkm_fc, SData, fcvec_m_sc, ynunm"]}
{"id": "C30", "title": "ispht synthesises sum c[n,m] Y_nm on the grid", "statement": "ispht(c, nrows, ncols) has at row i, column j the value sum over modes of c[n,m]*Y_nm(pi*i/(nrows-1), 2*pi*j/ncols), for all nrows>=nmax+2 and even ncols>=2*mmax+2.", "quantifier": "all coefficient sets and grid sizes (exact arithmetic)", "why_tests_cant": "identity for all inputs", "anchors": ["spherepy/spherepy.py: ispht", "spherepy/pysphi.py: sc_to_fc, fcvec_m_sc"]}
{"id": "C31", "title": "spht is the projection onto spherical harmonics", "statement": "spht(p, nmax, mmax)[n,m] is the integral over the sphere of conj(Y_nm) times the band-limited interpolant of p, for every symmetric pattern p and every nmax, mmax accepted.", "quantifier": "all symmetric patterns and all accepted nmax, mmax (exact arithmetic)", "why_tests_cant": "identity for all inputs", "anchors": ["spherepy/spherepy.py: spht", "spherepy/pysphi.py: fc_to_sc, bnm_vec_fc"]}
{"id": "C32", "title": "Scalar round trip", "statement": "spht(ispht(c, nrows, ncols), nmax, mmax) = c for every coefficient set c and every grid with nrows>=nmax+2 and even ncols>=2*mmax+2.", "quantifier": "all coefficient sets and all admissible grids (exact arithmetic)", "why_tests_cant": "tests sample random coefficients at a few sizes", "anchors": ["spherepy/spherepy.py: spht, ispht"]}
{"id": "C33", "title": "Vector round trip", "statement": "vspht(vispht(vc, nrows, ncols), nmax, mmax) = vc for every vector coefficient set (no monopole) and every grid with nrows>=nmax+2 and even ncols>=2*mmax+2.", "quantifier": "all vector coefficient sets and all admissible grids (exact arithmetic)", "why_tests_cant": "tests sample, and the norm they use ignores the second component", "anchors": ["spherepy/spherepy.py: vspht, vispht", "spherepy/ops.py: sinLdot_fc, L_fc, divsin_fc, dtheta_fc, dphi_fc"]}
{"id": "C34", "title": "Transforms are linear", "statement": "spht(a*p+b*q) = a*spht(p)+b*spht(q) and ispht(a*c+b*d) = a*ispht(c)+b*ispht(d) for patterns/coefs of equal shape.", "quantifier": "all patterns, coefficients and numbers (exact arithmetic)", "why_tests_cant": "universal identity", "anchors": ["spherepy/spherepy.py: spht, ispht"]}
{"id": "C35", "title": "spht argument checking", "statement": "spht(p,nmax,mmax) raises ValueError iff mmax>nmax, nmax>nrows-2, mmax>=ncols/2 or ncols is odd; with arguments omitted the documented defaults are used; on success the result has exactly the requested nmax, mmax.", "quantifier": "all patterns and arguments", "why_tests_cant": "all argument combinations", "anchors": ["spherepy/spherepy.py: spht, vspht"]}
{"id": "C36", "title": "ispht argument checking", "statement": "ispht(c,nrows,ncols) raises ValueError iff ncols is odd, nrows < nmax+2 or ncols < 2*mmax+2 (as documented); on success the pattern has exactly the requested nrows, ncols.", "quantifier": "all coefficient sets and arguments", "why_tests_cant": "boundary nrows = nmax+1", "anchors": ["spherepy/spherepy.py: ispht, vispht"]}
{"id": "C37", "title": "Synthesised patterns have the symmetry spht needs", "statement": "ispht(...) returns a pattern whose double-sphere data is exactly symmetric, and vispht(...) one whose two components are exactly antisymmetric.", "quantifier": "all coefficient sets and admissible grids (exact arithmetic)", "why_tests_cant": "identity for all inputs", "anchors": ["spherepy/spherepy.py: ispht, vispht", "spherepy/pysphi.py: fcvec_m_sc"]}
{"id": "C38", "title": "Requesting fewer modes only truncates", "statement": "spht(p, n1, m1) agrees with spht(p, n2, m2) on every mode that both contain, and likewise vspht.", "quantifier": "all patterns and all accepted pairs of limits (exact arithmetic)", "why_tests_cant": "FFT length, work arrays and layout all depend on nmax", "anchors": ["spherepy/spherepy.py: spht", "spherepy/pysphi.py: bnm_vec_fc, hkm_fc"]}
{"id": "C39", "title": "Parseval", "statement": "c.power() equals the integral over the sphere of |f|^2 where f = sum c[n,m] Y_nm is the function sampled by ispht(c).", "quantifier": "all coefficient sets (exact arithmetic)", "why_tests_cant": "identity for all inputs", "anchors": ["spherepy/spherepy.py: ScalarCoefs.power, ispht"]}
{"id": "C40", "title": "sph_harmonic_tp samples Y_nm on the documented grid", "statement": "sph_harmonic_tp(nrows,ncols,n,m)[i,j] = Y_nm(pi*i/(nrows-1), 2*pi*j/ncols).", "quantifier": "all nrows>=2, ncols>=1, |m|<=n", "why_tests_cant": "all grid sizes", "anchors": ["spherepy/spherepy.py: sph_harmonic_tp"]}
{"id": "C41", "title": "Fourier-domain operators implement the differential operators", "statement": "On Fourier data of band-limited functions sin_fc, dtheta_fc, dphi_fc realise multiplication by sin(theta), d/dtheta, d/dphi, and divsin_fc inverts sin_fc.", "quantifier": "all Fourier data within the band (exact arithmetic)", "why_tests_cant": "identity for all sizes incl. wrap-around rows", "anchors": ["spherepy/ops.py: sin_fc, divsin_fc, dtheta_fc, dphi_fc, pad_rows_fdata, fix_even_row_data_fc"]}
{"id": "C42", "title": "Saved coefficients load back unchanged", "statement": "load_coef(file written by save_coef(c)) = c.", "quantifier": "all coefficient sets with finite entries (finite binary64 real and imaginary parts)", "why_tests_cant": "all contents", "anchors": ["spherepy/file.py: save_coef, load_coef"]}
{"id": "C43", "title": "Saved patterns load back unchanged", "statement": "load_patt(file written by save_patt(p)) equals p, including the double-sphere continuation, for every symmetric pattern with nrows>=2 and even ncols.", "quantifier": "all symmetric patterns with finite entries (finite binary64 real and imaginary parts)", "why_tests_cant": "all contents", "anchors": ["spherepy/file.py: save_patt, load_patt"]}
{"id": "C44", "title": "Malformed coefficient files", "statement": "load_coef rejects a file whose number of data lines differs from the number of modes announced in the header.", "quantifier": "all files of well-formed lines", "why_tests_cant": "all lengths", "anchors": ["spherepy/file.py: load_coef"]}
{"id": "C45", "title": "Spherical Bessel recurrence for y_n", "statement": "sbessely(x,N) returns for every N>=1 a vector of length N with out[n-1]+out[n+1] = (2n+1)/x*out[n] and the correct closed forms for n=0,1.", "quantifier": "all x != 0, all N (exact arithmetic)", "why_tests_cant": "all N; N=1 is a boundary", "anchors": ["spherepy/sbessel.py: sbessely"]}
{"id": "C46", "title": "Spherical Bessel functions j_n: recurrence and cross product", "statement": "sbesselj(x,N) returns values obeying out[n-1]+out[n+1] = (2n+1)/x*out[n], and j[n+1]y[n]-j[n]y[n+1] = 1/x^2 when the starting ratio is exact.", "quantifier": "all x, N (exact arithmetic)", "why_tests_cant": "all N", "anchors": ["spherepy/sbessel.py: sbesselj, sbessel_test_cross_product"]}
{"id": "C47", "title": "kiss_fft computes the DFT", "statement": "For every length n>=1 and every input, kiss_fft with the factorisation found by kf_factor outputs the discrete Fourier transform (or unnormalised inverse).", "quantifier": "all lengths and inputs (exact arithmetic)", "why_tests_cant": "mixed radix: all factorisations", "anchors": ["src/kiss_fft.c: kf_work, kf_bfly2, kf_bfly3, kf_bfly4, kf_bfly5, kf_bfly_generic, kf_factor"]}
{"id": "C48", "title": "kiss_fft factor buffer never overflows", "statement": "kf_factor terminates for every int n>=1, writes at most 2*MAXFACTORS ints, and the recorded stages satisfy p_i*m_i = m_{i-1}, m_0 = n, last m = 1.", "quantifier": "all 1 <= n < 2^31", "why_tests_cant": "all n", "anchors": ["src/kiss_fft.c: kf_factor", "src/_kiss_fft_guts.h: MAXFACTORS"]}
{"id": "C49", "title": "The Python fallback can be selected", "statement": "Setting use_cext to false in pkg_info.json makes the transforms use the pure-Python routines.", "quantifier": "all values of the configuration string", "why_tests_cant": "the flag is a JSON string and every non-empty string is true", "anchors": ["spherepy/spherepy.py: use_cext", "spherepy/pkg_info.json"]}
{"id": "C50", "title": "vispht synthesises the documented vector spherical harmonics", "statement": "vispht(vc,nrows,ncols) is the sampled tangential field sum over 1<=n<=nmax, |m|<=min(n,mmax) of vc[n,m][0]*X_nm + vc[n,m][1]*(i r^ x X_nm), with Jackson's X_nm = L Y_nm / sqrt(n(n+1)) (as in the tutorial), at theta_i = pi*i/(nrows-1), phi_j = 2*pi*j/ncols.", "quantifier": "all vector coefficient sets and admissible grids, both backends (exact arithmetic)", "why_tests_cant": "identity over all coefficients and grid sizes, including the poles where L has a 1/sin factor", "anchors": ["spherepy/spherepy.py: vispht", "spherepy/ops.py: L_fc", "docs: Tutorial2.rst"]}
{"id": "C51", "title": "vspht is the projection onto the vector spherical harmonics", "statement": "For a double-sphere-antisymmetric tangential pattern, vspht returns the inner products over the sphere of the trigonometric interpolant of the samples with X_nm and i r^ x X_nm for every requested mode.", "quantifier": "all antisymmetric transverse patterns, all nmax, mmax admitted by the size check (exact arithmetic)", "why_tests_cant": "integral identity over all inputs and sizes", "anchors": ["spherepy/spherepy.py: vspht", "spherepy/ops.py: sinLdot_fc"]}
{"id": "C52", "title": "load_vcoef reads both components", "statement": "For a file consisting of a header nmax,mmax,directivity, one re,im line per mode, a line 'break', and one re,im line per mode again, load_vcoef returns exactly these two coefficient lists in order, with only the monopole entries (0,0) replaced by 0, the limits nmax, mmax and the directivity.", "quantifier": "all such files, of any size, whatever the spelling of the numbers and the white space around 'break'", "why_tests_cant": "all file contents and sizes; the reader is a stateful line loop with a mode switch", "anchors": ["spherepy/file.py: load_vcoef", "spherepy/spherepy.py: VectorCoefs.__init__"]}
{"id": "C54", "title": "Functions leave their arguments alone", "statement": "Building an object with a factory, copy(), arithmetic, c[0:k,:], spht, vspht, ispht or vispht changes no object the program already has - on success and when the call raises - although the transforms internally overwrite Fourier data in place, window coefficient sets in place and the VectorCoefs constructor writes into the arrays it is given.", "quantifier": "all programs, all existing objects, all arguments, both back ends", "why_tests_cant": "absence of side effects on every object for all inputs and histories", "anchors": ["spherepy/spherepy.py: spht, vspht, ispht, vispht, VectorCoefs.__init__", "spherepy/ops.py: sinLdot_fc, L_fc, pad_rows_fdata"]}
{"id": "C55", "title": "LInf_coef is the largest coefficient magnitude", "statement": "LInf_coef(c) of a scalar set is the magnitude of some stored coefficient and no coefficient has a larger magnitude; for a vector set it is sqrt(a^2+b^2) of the values a, b of the two components, and is 0 only if both components vanish.", "quantifier": "all well-formed coefficient sets of every size", "why_tests_cant": "maximum over all sizes and all values", "anchors": ["spherepy/spherepy.py: LInf_coef"]}
{"id": "C56", "title": "Pattern norms are norms", "statement": "L2_patt(p)^2 is the sum of |sample|^2 over the double sphere, vanishes only for the zero pattern, satisfies the triangle inequality for p+q and homogeneity for p*x; LInf_patt(p) is the largest sample magnitude; for transverse patterns both combine the component values as sqrt(a^2+b^2) and vanish only if both components do.", "quantifier": "all patterns of every shape, all numbers x", "why_tests_cant": "norm axioms over all patterns", "anchors": ["spherepy/spherepy.py: L2_patt, LInf_patt"]}
{"id": "C57", "title": "compare_relative detects every difference", "statement": "For sets of equal limits compare_relative(c,d) is the sum of |c-d| over all modes divided by the sum of |c|; the numerator is 0 exactly when the sets are equal and the denominator is 0 exactly when c is zero.", "quantifier": "all pairs of well-formed sets with equal limits", "why_tests_cant": "all sizes and values", "anchors": ["spherepy/spherepy.py: compare_relative"]}
{"id": "C53", "title": "The verification routines report zero exactly on agreement", "statement": "verify_spht, verify_ispht, verify_vspht and verify_vispht raise what the transform raises on the loaded data and otherwise return error norms whose L2 and LInf entries are each 0 exactly when the loaded object equals what the transform computes from the other loaded object; verify_fdata returns the largest difference between loaded Fourier data and those of the loaded coefficients. Saving a set and its ispht and verifying the two files reports 0.", "quantifier": "all files that load, all sizes, both back ends (exact arithmetic)", "why_tests_cant": "an error metric that is blind somewhere passes every test of correct data", "anchors": ["spherepy/verify.py: verify_spht, verify_ispht, verify_fdata, verify_vspht, verify_vispht"]}
{"id": "C58", "title": "Unsupported index expressions are rejected", "statement": "Reading a coefficient set with anything but c[n,m], c[:,m], c[n,:], c[0:k,:], and assigning with anything but c[n,m], c[:,m], c[n,:] (for vector sets: anything but vc[n,m] = (x,y)), raises AttributeError and leaves the set unchanged.", "quantifier": "all index tuples (integers, slices with any start/stop/step, other objects, any length), all values, all sets", "why_tests_cant": "all index forms", "anchors": ["spherepy/spherepy.py: ScalarCoefs.__getitem__/__setitem__, VectorCoefs.__getitem__/__setitem__"]}
{"id": "C59", "title": "A vector set is a map from modes to pairs", "statement": "vc[n,m] is a pair exactly for modes with n>=1 (the values of the two components), AttributeError otherwise; vc[n,m]=(x,y) changes that pair only, or raises AttributeError and changes nothing, so that after any sequence of such assignments a read returns the last pair successfully assigned to the mode; vc[:,m] and vc[n,:] are the pairs of columns and rows of the components; vc[0:k,:] keeps exactly the modes of degree <= k.", "quantifier": "all well-formed vector sets, all integers n, m, k, all values", "why_tests_cant": "all shapes and indices", "anchors": ["spherepy/spherepy.py: VectorCoefs.__getitem__, VectorCoefs.__setitem__"]}
{"id": "C60", "title": "Vector sets combine with numbers mode by mode", "statement": "vc op x and x op vc for +,-,*,/ (x != 0 for vc / x) apply the operator to both values of every mode with n>=1 and keep the limits; other operands raise TypeError.", "quantifier": "all well-formed vector sets, all operators and numbers", "why_tests_cant": "all shapes and values", "anchors": ["spherepy/spherepy.py: VectorCoefs._vector_coef_op_left/_right"]}
{"id": "C61", "title": "copy() and size", "statement": "copy() of a set returns an equal set with the same limits; size is the number of modes.", "quantifier": "all well-formed scalar sets and all well-formed vector sets with zero (0,0) entries", "why_tests_cant": "all shapes and values", "anchors": ["spherepy/spherepy.py: ScalarCoefs.copy, ScalarCoefs.size, VectorCoefs.copy, VectorCoefs.size"]}
{"id": "C62", "title": "Surface plots show the magnitude at the right place", "statement": "plot_mag_on_sphere(T) draws one surface point per grid sample plus a closing column: the point of row i, column j lies at polar angle pi*i/(nrows-1) and azimuth 2*pi*j/ncols, at radius T[i,j], the last column repeats the first, and the drawn box contains the whole surface. plot_sphere_mag of a scalar pattern shows |p|, of a transverse pattern sqrt(|theta|^2+|phi|^2). simple_plot(n,m) shows |Y_nm|. Without matplotlib every plotting routine raises ImportError.", "quantifier": "all arrays with at least one row and column, all patterns, all degrees and orders", "why_tests_cant": "all shapes and values", "anchors": ["spherepy/plot_sphere.py: plot_mag_on_sphere, plot_sphere_mag, simple_plot, matplotlibensure"]}
{"id": "C63", "title": "pcolor_coefs draws every coefficient in its own cell", "statement": "pcolor_coefs(c) draws the cell with corners (m +/- 1/2, n +/- 1/2) with the magnitude |c[n,m]| for every mode, and zero for cells that are not modes; the colour range is [0, max|c[n,m]|].", "quantifier": "all well-formed scalar sets", "why_tests_cant": "all shapes and values", "anchors": ["spherepy/plot_sphere.py: pcolor_coefs"]}
{"id": "C64", "title": "plot_coefs draws one curve per order", "statement": "plot_coefs(c) draws one curve per order m, -mmax<=m<=mmax, whose value at abscissa n is |c[n,m]|; where (n,m) is not a mode nothing is drawn. pcolor_coefs and plot_coefs refuse vector sets with an exception.", "quantifier": "all well-formed scalar sets; all vector sets", "why_tests_cant": "all shapes and values", "anchors": ["spherepy/plot_sphere.py: plot_coefs, pcolor_coefs"]}
{"id": "C65", "title": "Symmetrisation is exact in floating point", "statement": "In IEEE double arithmetic (round to nearest), double_sphere returns data with exact double-sphere symmetry, bit for bit, for either sign; a pattern built from an array returns every off-pole sample bit for bit, and every pole sample that already has the pole symmetry and whose parts are zero or at least 2^-500 in magnitude. (Below that the zero test s*t == 0 underflows and the pole samples come back doubled: this is shown as a counterexample.)", "quantifier": "all arrays of finite complex128 values with parts below 2^500 in magnitude (so that nothing overflows) and an even number of columns; all roundings to nearest", "why_tests_cant": "all doubles and all shapes", "anchors": ["spherepy/spherepy.py: double_sphere, continue_sphere, ScalarPatternUniform.__init__, TransversePatternUniform.__init__"]}
{"id": "C66", "title": "Bessel helper and test routines", "statement": "sbesselj_array/sbessely_array(xvec, N) return the N by len(xvec) array whose column i is the vector for xvec[i] (an exception of a single call is passed on; an empty list raises). sbesselj_sum(z,N) returns |(S-1)/S| + 2^-52 with S = sum (2n+1) b_n^2, and for exact values S differs from 1 by at most |z|^(2N)/((2N+1)!!(2N-1)!!). sbessel_test_cross_product(z,N) returns the largest of the N relative deviations |z^2 (j_{n+1}y_n - j_n y_{n+1}) - 1|, which is within the error budget of C46.", "quantifier": "all lists of arguments, all z != 0, all N >= 2 (exact arithmetic)", "why_tests_cant": "all N and all real arguments", "anchors": ["spherepy/sbessel.py: sbesselj_array, sbessely_array, sbesselj_sum, sbessel_test_cross_product"]}
{"id": "C67", "title": "random_coefs uses one random number per part of each coefficient", "statement": "random_coefs(nmax,mmax,mu,sigma,coef_type) returns a well-formed set with the requested limits; the real and imaginary part of every coefficient are mu + sigma*z for their own standard normal number z, no number is used twice and all drawn numbers are used (2L for scalar, 4L for vector sets, L the number of modes); a vector set has a zero monopole. mmax > nmax, a negative sigma and an unknown coef_type are rejected with ValueError / ValueError / TypeError.", "quantifier": "all streams of random numbers, all limits 0 <= mmax <= nmax, all mu, all sigma >= 0", "why_tests_cant": "random output: a test sees one stream and cannot show that no number is shared between coefficients", "anchors": ["spherepy/spherepy.py: random_coefs"]}
{"id": "C68", "title": "Printed text determines a scalar coefficient set; dispatching functions reject foreign types", "statement": "str(c) of a well-formed scalar set is a header with the limits followed by one line per degree n listing c[n,m] for m=-min(n,mmax)..min(n,mmax); repr(c) has the same content on one line. If the text of single coefficients is injective and contains no comma or newline, two sets with the same str are equal. (Vector sets print their limits only: counterexample.) array returns the stored samples (both components of a transverse pattern), abs, mag and mag2 the magnitudes and squared magnitudes sample by sample or mode by mode (mag2 of a scalar set: C18), and all four raise TypeError exactly on the types they are not defined for.", "quantifier": "all well-formed sets, all injective number formats; all objects handed to the dispatching functions", "why_tests_cant": "all limits and all values; injectivity is a statement about pairs of inputs", "anchors": ["spherepy/spherepy.py: ScalarCoefs.__str__, ScalarCoefs.__repr__, VectorCoefs.__repr__, array, abs, mag, mag2"]}
{"id": "C69", "title": "Rotation about the z-axis multiplies coefficients by phases", "statement": "If the samples of a pattern are shifted cyclically by s columns, spht returns the coefficients of the original pattern multiplied by exp(-2 pi i m s/ncols); it succeeds whenever it did before, on either backend.", "quantifier": "all arrays with 2 <= rows <= 2^28, all shifts, all limits spht accepts, both backends (exact arithmetic)", "why_tests_cant": "all samples, all shapes, all shifts", "anchors": ["spherepy/spherepy.py: spht, ScalarPatternUniform"]}
{"id": "C70", "title": "Conjugation and real patterns", "statement": "spht of the conjugated samples has c'[n,m] = (-1)^m conj(c[n,-m]); hence real samples give c[n,-m] = (-1)^m conj(c[n,m]), and coefficients with that symmetry synthesise (ispht) a real pattern.", "quantifier": "all arrays with 2 <= rows <= 2^28, all limits accepted; all well-formed sets with the symmetry and all admissible grids (exact arithmetic)", "why_tests_cant": "all samples and shapes", "anchors": ["spherepy/spherepy.py: spht, ispht"]}
{"id": "C71", "title": "Reflection and inversion parity", "statement": "Reversing the order of the rows (theta -> pi - theta) multiplies c[n,m] by (-1)^(n+m); the antipodal map multiplies it by (-1)^n.", "quantifier": "all arrays with 2 <= rows <= 2^28, all limits accepted, both backends (exact arithmetic)", "why_tests_cant": "all samples and shapes", "anchors": ["spherepy/spherepy.py: spht"]}
{"id": "C72", "title": "Rotation about the z-axis of transverse fields", "statement": "If both components are shifted cyclically by s columns, vspht returns both coefficient families multiplied by exp(-2 pi i m s/ncols).", "quantifier": "all pairs of arrays of equal shape, all shifts, all limits accepted, both backends (exact arithmetic)", "why_tests_cant": "all samples, shapes, shifts", "anchors": ["spherepy/spherepy.py: vspht, TransversePatternUniform"]}
{"id": "C73", "title": "Duality of the two vector harmonic families", "statement": "Turning a transverse field by 90 degrees about the radial direction (theta' = -phi, phi' = theta) exchanges the two coefficient families and multiplies them by -i.", "quantifier": "all pairs of arrays of equal shape, all limits accepted, both backends (exact arithmetic)", "why_tests_cant": "all samples and shapes", "anchors": ["spherepy/spherepy.py: vspht"]}
{"id": "C74", "title": "Conjugation, real fields and reflection for the vector transform", "statement": "vspht of the conjugated field has c1'[n,m] = -(-1)^m conj(c1[n,-m]), c2'[n,m] = (-1)^m conj(c2[n,-m]), so a real field's coefficients have this symmetry; the mirror image of a field (rows reversed, theta component negated) has c1 multiplied by -(-1)^(n+m) and c2 by (-1)^(n+m).", "quantifier": "all pairs of arrays of equal shape, all limits accepted, both backends (exact arithmetic)", "why_tests_cant": "all samples and shapes", "anchors": ["spherepy/spherepy.py: vspht"]}
{"id": "C75", "title": "Scalar analysis is well-conditioned", "statement": "The coefficients returned by spht never carry more than 2*pi^2 times the mean of |sample|^2 over the double sphere (in particular L2_coef(spht(p))^2 <= 2 pi^2 L2_patt(p)^2/(rows*cols)). Two patterns on the same grid whose samples differ by at most eps give coefficients that differ by at most sqrt(2)*pi*eps each, whatever nmax and mmax are; so noise of size eps on the samples of ispht(c) changes each recovered coefficient by at most sqrt(2)*pi*eps.", "quantifier": "all double-sphere symmetric sample arrays of even row count (what every pattern constructor produces), all limits accepted by spht, all perturbations, both backends (exact arithmetic)", "why_tests_cant": "an operator-norm bound ranges over all sample arrays and all sizes", "anchors": ["spherepy/spherepy.py: spht", "spherepy/spherepy.py: L2_patt", "spherepy/spherepy.py: L2_coef"]}
{"id": "C76", "title": "Scalar synthesis is well-conditioned", "statement": "No sample of ispht(c) is larger in absolute value than (nmax+1)/sqrt(4 pi) times L2_coef(c), and changing the coefficients changes each sample by at most that factor times the root of the sum of the squared changes.", "quantifier": "all well-formed coefficient sets, all output sizes accepted, both backends (exact arithmetic)", "why_tests_cant": "an operator-norm bound ranges over all coefficient sets and all sizes", "anchors": ["spherepy/spherepy.py: ispht", "spherepy/spherepy.py: L2_coef"]}
{"id": "C77", "title": "Vector analysis is well-conditioned", "statement": "The squared magnitudes of all coefficients of both families returned by vspht add up to at most 2*pi^2 times the mean of |Etheta|^2+|Ephi|^2 over the double sphere; two transverse patterns on the same grid whose components differ by at most eps at every sample give coefficients that differ by at most 2*pi*eps each, whatever the limits.", "quantifier": "all pairs of antisymmetric double-sphere arrays of equal shape and even row count, all limits accepted, all perturbations, both backends (exact arithmetic)", "why_tests_cant": "an operator-norm bound ranges over all sample arrays and all sizes", "anchors": ["spherepy/spherepy.py: vspht"]}
{"id": "C78", "title": "Vector synthesis is well-conditioned", "statement": "At no sample of vispht(c) is |Etheta|^2+|Ephi|^2 larger than nmax*(nmax+2)/(4 pi) times the sum of the squared magnitudes of the coefficients of both families; changing the coefficients changes the field at each sample by at most that factor times the sum of the squared changes (also at the poles).", "quantifier": "all well-formed vector coefficient sets, all output sizes accepted, both backends (exact arithmetic)", "why_tests_cant": "an operator-norm bound ranges over all coefficient sets and all sizes", "anchors": ["spherepy/spherepy.py: vispht"]}
{"id": "C79", "title": "A column is a live view of the set", "statement": "v = c[:,m] does not copy: at any later time v shows, entry by entry, the current values of c[abs(m),m], ..., c[nmax,m], and v[k] = x has exactly the effect of c[abs(m)+k, m] = x (negative k count from the end; k out of range raises IndexError and changes nothing). This stays so after any sequence of item, row and column assignments, windowing and writes through any number of such columns, whether or not some of them raise, and also when those assignments use the views themselves as values.", "quantifier": "all well-formed scalar sets, all orders m, all finite sequences of statements over the set and its columns", "why_tests_cant": "ranges over all histories of writes through the set and through any number of aliases", "anchors": ["spherepy/spherepy.py: ScalarCoefs.__getitem__", "spherepy/spherepy.py: ScalarCoefs.__setitem__", "spherepy/spherepy.py: ScalarCoefs.window"]}
{"id": "C80", "title": "Using a column of a set as the value written into the same set", "statement": "Passing c[:,m] back into a method of the same set (c[:,k] = c[:,m], c[n,:] = c[:,m], c.window(c[:,0])) has the same effect as passing a copy of the column.", "quantifier": "all well-formed scalar sets, all m, n", "why_tests_cant": "the array is read while it is written; whether the order matters depends on nmax, mmax, n and m", "anchors": ["spherepy/spherepy.py: ScalarCoefs.__setitem__", "spherepy/spherepy.py: ScalarCoefs.window"]}
{"id": "C81", "title": "Editing a pattern's samples in place", "statement": "Changing samples through the array a pattern hands out (p.cdata[i,j] = x, p.array *= k, p.theta[...] = ..., p.phi[...] = ...) gives the pattern one would construct from the edited samples, so that it can be transformed; an index outside the array raises IndexError.", "quantifier": "all patterns with the double-sphere symmetry, scalar and transverse, all edits", "why_tests_cant": "ranges over all patterns, sizes and edits", "anchors": ["spherepy/spherepy.py: ScalarPatternUniform.cdata", "spherepy/spherepy.py: ScalarPatternUniform.array", "spherepy/spherepy.py: TransversePatternUniform.theta", "spherepy/spherepy.py: TransversePatternUniform.phi"]}
{"id": "C82", "title": "Both backends accept the same coefficient sets", "statement": "Every coefficient set that ispht transforms with the Python routines it also transforms with the C extension, with the same result, however the set was made (factories, spht, files, arrays of any numeric type, arithmetic, copies, abs/mag/mag2, in-place changes). Vector sets always hold complex data: VectorCoefs refuses real arrays with TypeError.", "quantifier": "all expressions building a coefficient set, all element types and layouts of user arrays, all output sizes", "why_tests_cant": "ranges over all ways to build a set; the element type of an expression depends on all its parts", "anchors": ["src/csphi_wrap.c: _wrap_sc_to_fc", "src/csphi_wrap.c: obj_to_array_no_conversion", "src/csphi.i", "spherepy/spherepy.py: ispht", "spherepy/spherepy.py: abs", "spherepy/spherepy.py: VectorCoefs.__init__"]}
{"id": "C83", "title": "The power spectrum does not depend on the orientation", "statement": "angular_power_spectrum() and power() of spht(p, nmax, mmax) are unchanged when the pattern is rotated about the z axis by a whole number of columns, reflected in the equator, mapped to its antipodal pattern, or conjugated (exact arithmetic).", "quantifier": "all patterns that spht accepts, all limits, all rotations by whole columns", "why_tests_cant": "holds for every pattern and every rotation, tests sample a few", "anchors": ["spherepy/spherepy.py: spht", "spherepy/spherepy.py: ScalarCoefs.angular_power_spectrum", "spherepy/spherepy.py: ScalarCoefs.power"]}
{"id": "C84", "title": "Coefficient arithmetic in doubles: what holds exactly", "statement": "In double precision, with rounding to nearest: a+b equals b+a and a*b equals b*a bit for bit; a-a is zero; adding 0, subtracting 0, multiplying by 1, dividing by 1, adding a zero set leave a unchanged; a+a equals 2*a; (2*a)/2 equals a; b-a is the negation of a-b.", "quantifier": "all coefficient sets of equal limits whose values are doubles below 2^500 in magnitude, all roundings to nearest (either tie rule)", "why_tests_cant": "ranges over all doubles; rounding identities fail on rare values if they fail", "anchors": ["spherepy/spherepy.py: ScalarCoefs.__add__", "spherepy/spherepy.py: ScalarCoefs.__mul__", "spherepy/spherepy.py: ScalarCoefs.__sub__", "spherepy/spherepy.py: ScalarCoefs.__truediv__"]}
{"id": "C85", "title": "power, angular_power_spectrum and L2_coef are accurate in doubles", "statement": "For a set of N \u2264 2^50 double values, each 0 or of magnitude between 2^-500 and 2^400, power() is within (N+6) 2^-52 relative of the exact sum of squares, entry n of angular_power_spectrum() within (2 min(n,mmax) + 7) 2^-52 and L2_coef within (N+8) 2^-52, in whatever order numpy adds and with an np.abs that is within one ulp.", "quantifier": "all coefficient sets in range, all summation orders and bracketings, all roundings to nearest, all hypot implementations within 2^-52", "why_tests_cant": "a bound over all doubles and all summation orders", "anchors": ["spherepy/spherepy.py: ScalarCoefs.power", "spherepy/spherepy.py: ScalarCoefs.angular_power_spectrum", "spherepy/spherepy.py: L2_coef"]}
{"id": "C86", "title": "The harmonic tables are accurate in doubles at every degree", "statement": "For every degree n and order |m| <= n the value ynnm(n, m), the entry of degree n of ynunm(n, m, L) from which the whole table is computed, is the exact Fourier coefficient of Y_nm up to a relative error of (6n + 5) 2^-52.", "quantifier": "all degrees and orders, all roundings to nearest", "why_tests_cant": "a bound over all degrees and orders; tests use small degrees and would not reach the degrees at which it fails", "anchors": ["spherepy/pysphi.py: ynnm", "spherepy/pysphi.py: ynunm", "src/csphi.c: ynnm", "src/csphi.c: ynunm"]}
{"id": "C87", "title": "Both backends compute the same harmonic tables bit for bit", "statement": "The C function ynunm leaves in its work array exactly the doubles the Python function ynunm returns, for every degree up to 2^20 and every order, although the two evaluate different expressions.", "quantifier": "all degrees up to 2^20, all orders, all lengths, all previous contents of the work array, all roundings to nearest", "why_tests_cant": "bitwise equality over all degrees and orders", "anchors": ["spherepy/pysphi.py: ynnm", "spherepy/pysphi.py: ynunm", "src/csphi.c: ynnm", "src/csphi.c: ynunm"]}
{"id": "C88", "title": "Inverse transforms are bit-identical with and without the C extension", "statement": "For every coefficient set with orders up to 100 (where CPython's 1j**m is exact) and degrees up to 2^20, and every grid size, ispht and vispht give exactly the same doubles, or the same error, whether or not the C extension is used; barring overflow, and except for nmax = 0 with nrows = 1 (C29).", "quantifier": "all coefficient values, all limits with mmax <= 100 and nmax <= 2^20, all requested sizes, all contents of malloc'ed memory, all roundings to nearest, whatever NumPy's ifft2 computes", "why_tests_cant": "bitwise equality over all coefficient values, sizes and limits; the two implementations evaluate different expressions", "anchors": ["spherepy/pysphi.py: sc_to_fc", "spherepy/pysphi.py: fcvec_m_sc", "src/csphi.c: sc_to_fc", "src/csphi.c: fcvec_m_sc", "spherepy/spherepy.py: ispht", "spherepy/spherepy.py: vispht"]}
{"id": "C89", "title": "The C extension's 32-bit ints do not overflow below 2^31 samples", "statement": "With 32-bit ints in C, spht, vspht, ispht and vispht through the C extension return exactly what the Python version returns, for every pattern with at most 2^31 samples after the internal padding ((rows+2)*cols of the extended array) and every requested grid with (2*nrows-2)*ncols <= 2^31; for accepted calls of any of the four with mmax >= 1 (ispht: on a grid with nrows >= nmax+2) the bound is exact: one sample more and an int overflows, which is undefined behaviour.", "quantifier": "all patterns and coefficient sets, all limits and grid sizes, all contents of malloc'ed memory", "why_tests_cant": "the first overflowing pattern has 32 GB of samples; absence of overflow below the bound concerns every size", "anchors": ["src/csphi.c: ynnm, ynunm, FindQ, SData, hkm_fc, bnm_fc, fc_to_sc, fcvec_m_sc, sc_to_fc", "spherepy/spherepy.py: spht, vspht, ispht, vispht"]}
{"id": "C90", "title": "Rotating a pattern acts unitarily on each degree; the power spectrum does not depend on the orientation", "statement": "Sample a function with harmonics up to degree N on any grid fine enough for N and analyse it with spht(p, N, N): the coefficients are exactly those of the function. If the function is first turned by any rotation or reflection Q of space, the coefficients of each degree are those of the original multiplied by a unitary matrix that depends only on Q and the degree; so angular_power_spectrum() and power() are unchanged (exact arithmetic).", "quantifier": "all band-limited functions, all degrees, all orthogonal 3x3 matrices, all (also different) grids fine enough, both backends", "why_tests_cant": "every rotation of every function on every grid; rotations other than about the z axis do not map grid points to grid points", "anchors": ["spherepy/spherepy.py: ScalarPatternUniform", "spherepy/spherepy.py: spht", "spherepy/spherepy.py: ScalarCoefs.angular_power_spectrum", "spherepy/spherepy.py: ScalarCoefs.power"]}
{"id": "C91", "title": "Turning a vector field acts unitarily on each degree of both components; their power spectra do not depend on the orientation", "statement": "Sample the theta and phi components of a tangential field with vector harmonics up to degree N on any grid fine enough for N and analyse it with vspht(p, N, N): the coefficients are exactly those of the field. If the field is first turned by any rotation or reflection Q of space (points and vectors together), each degree of the second component is multiplied by the unitary matrix by which Q acts on scalar harmonics, and each degree of the first component by the same matrix times det Q; so the angular_power_spectrum() and power() of both components are unchanged (exact arithmetic).", "quantifier": "all band-limited tangential fields, all degrees, all orthogonal 3x3 matrices, all (also different) grids fine enough, both backends", "why_tests_cant": "every rotation of every field on every grid; rotations other than about the z axis do not map grid points to grid points and mix the theta and phi components", "anchors": ["spherepy/spherepy.py: TransversePatternUniform", "spherepy/spherepy.py: vspht", "spherepy/spherepy.py: VectorCoefs", "spherepy/spherepy.py: ScalarCoefs.angular_power_spectrum"]}
{"id": "C92", "title": "Every entry of the harmonic tables is accurate in doubles up to degree 1000", "statement": "For every degree n <= 1000, every order |m| <= n and every length L > n, ynunm(n, m, L) computed in doubles (either backend) differs from the exact Fourier coefficients of Y_nm, in every entry, by at most (n+3)^3 2^-50 times sqrt((2n+1)/(4 pi)), the maximum that harmonics of degree n can take; for order 0 every entry has a relative error of at most (n+3)^2 2^-51. In particular the downward recursion does not amplify rounding errors.", "quantifier": "all degrees up to 1000, all orders, all entries, all roundings to nearest, both backends", "why_tests_cant": "half a million tables; whether a three-term recursion is stable depends on solutions that the exact data do not show", "anchors": ["spherepy/pysphi.py: ynunm", "spherepy/pysphi.py: ynnm", "src/csphi.c: ynunm", "src/csphi.c: ynnm"]}
{"id": "C93", "title": "ispht in doubles gives samples of the harmonic series up to an explicit error", "statement": "For coefficients with nmax <= 1000 whose real and imaginary parts are at most C in size (2^-900 <= C <= 2^900), and every legal grid nrows >= nmax+2, even ncols >= 2 mmax+2, ispht computed in doubles with either backend succeeds and every sample (i, j) is within delta + (2N+1)(2M+1)(N+1)(N+4)^3 2^-49 C sqrt((2N+1)/(4 pi)) of the harmonic series of the coefficients at theta = pi i/(nrows-1), phi = 2 pi j/ncols, where delta is the error of numpy's inverse FFT on the intermediate array.", "quantifier": "all coefficient sets up to those limits, all legal grids, both backends, all roundings to nearest", "why_tests_cant": "a forward error bound over all coefficient values and grids; tests compare ispht only with spht, whose errors could cancel", "anchors": ["spherepy/spherepy.py: ispht", "spherepy/pysphi.py: sc_to_fc", "spherepy/pysphi.py: fcvec_m_sc", "spherepy/pysphi.py: ynunm", "src/csphi.c: sc_to_fc"]}
{"id": "C94", "title": "spht in doubles is accurate up to an explicit error", "statement": "For a pattern whose doubled samples D have modulus at most C (2^-900 <= C <= 2^400), with even numbers of rows r <= 2^29 and columns, and limits nmax = N <= 1000, mmax = M that spht accepts, spht computed in doubles with either backend succeeds, returns a well-formed set with those limits, and every coefficient of degree n is within sqrt((2n+1)/(4 pi)) * ((n+1)(n+4)^3 2^-43 C + (2n+1)(delta2 + 20 sqrt(r+1) (delta1 + 2^-49 C))) of the coefficient exact arithmetic gives for the same samples, where delta1 and delta2 are the errors of the library FFT and of the fast convolution (sqrt(r+1) delta1 <= C/4 and delta2 <= C).", "quantifier": "all sample values, grid sizes and limits in range, both backends, all roundings to nearest, all orders of summation in np.sum", "why_tests_cant": "a forward error bound over all sample values; tests compare with ispht or with the other backend, which may share the error", "anchors": ["spherepy/spherepy.py: spht", "spherepy/ops.py: sin_fc", "spherepy/ops.py: fix_even_row_data_fc", "spherepy/ops.py: pad_rows_fdata", "spherepy/pysphi.py: bnm_vec_fc", "spherepy/pysphi.py: fc_to_sc", "src/csphi.c: bnm_fc", "src/csphi.c: fc_to_sc"]}
{"id": "C95", "title": "The scalar round trip in doubles", "statement": "For every well-formed set of double coefficients of degree N <= 1000 and order M whose real and imaginary parts have modulus at most C (2^-900 <= C <= 2^300), and every accepted even grid, ispht with one backend followed by spht with either backend, both computed in doubles, succeeds and returns a well-formed set with the same limits in which every coefficient of degree n differs from the original by at most sqrt((2n+1)/(4 pi)) * ((n+1)(n+4)^3 2^-43 S + (2n+1)(delta2 + 20 sqrt(2 nr - 1) (delta1 + 2^-49 S) + 20 eps)) with S = (N+1)^2 C and eps the bound of C93 on the samples.", "quantifier": "all coefficient values, limits and grids in range, both backends on either side, all roundings to nearest", "why_tests_cant": "the project's own round-trip tests compare on random sets of a few sizes with an ad hoc tolerance; the claim is over all values", "anchors": ["spherepy/spherepy.py: ispht", "spherepy/spherepy.py: spht", "spherepy/pysphi.py", "src/csphi.c"]}
{"id": "C96", "title": "Vector synthesis in doubles is accurate", "statement": "For every well-formed pair of coefficient sets in doubles of degree N <= 1000 and order M whose real and imaginary parts (degree >= 1) have modulus at most C (2^-900 <= C <= 2^900) and every accepted even grid of nr rows, vispht computed in doubles with either backend succeeds, and every theta and phi sample differs from the value at that grid point of the tangential field with exactly these coefficients (Jackson's vector harmonics) by at most delta + (2 nr - 1)(2M+1)(2N+1)(M+1)(N+1)(N+4)^3 2^-47 C sqrt((2N+1)/(4 pi)), where delta is the error of the library inverse FFT on arrays of that shape with entries at most 8(2N+1)(M+1)(N+1) C sqrt((2N+1)/(4 pi)).", "quantifier": "all coefficient values, limits and grids in range, both backends, all roundings to nearest", "why_tests_cant": "tests compare a few random sets with an ad hoc tolerance; the bound is over all values and sizes, and the recursion of divsin_fc accumulates rounding errors over the rows", "anchors": ["spherepy/spherepy.py: vispht", "spherepy/ops.py: divsin_fc, dtheta_fc, dphi_fc, L_fc", "spherepy/pysphi.py: sc_to_fc", "src/csphi.c: sc_to_fc"]}
{"id": "C97", "title": "Vector analysis in doubles is accurate", "statement": "For every transverse pattern whose doubled components have R <= 2^29 (even) rows, an even number of columns and samples of modulus at most C (2^-900 <= C <= 2^400), and all accepted limits N <= 1000, M, vspht(p, N, M) computed in doubles with either backend succeeds, returns a well-formed set with these limits, and both coefficients of every mode (n, m), n >= 1, differ from those of the same transform in exact arithmetic on the same samples by at most (n(n+1))^(-1/2) sqrt((2n+1)/(4 pi)) [(n+1)(n+4)^3 2^-42 W C + (2n+1)(d2 + 20 sqrt(R+1) W (d1 + 2^-48 C))], W = R/2 + M + 3, where d1 and d2 are the errors of the library FFT and of the fast convolution on the arrays they are given.", "quantifier": "all samples, grids, limits in range, both backends, all roundings to nearest, any order of np.sum", "why_tests_cant": "tests use a few patterns and an ad hoc tolerance; the bound is over all samples and sizes, and shows how the derivative in theta amplifies errors with the number of rows", "anchors": ["spherepy/spherepy.py: vspht", "spherepy/ops.py: sinLdot_fc, sin_fc, dtheta_fc, dphi_fc", "spherepy/pysphi.py: fc_to_sc", "src/csphi.c: fc_to_sc"]}
{"id": "C98", "title": "Vector round trip in doubles", "statement": "For every vector coefficient set with nmax = N <= 1000, mmax = M whose coefficients have real and imaginary parts at most C, vispht(c, nrows, ncols) followed by vspht(p, N, M), both computed in doubles with either backend (not necessarily the same), succeeds and returns both coefficients of every mode (n, m), n >= 1, up to an explicit error: the error of C97 for samples of modulus (N+1)^2 C plus (n(n+1))^(-1/2) (2n+1) sqrt((2n+1)/(4 pi)) 20 (M+nrows) e, where e is the error of the samples (C96).", "quantifier": "all coefficient sets, grids and limits in range, both backends in both directions, all roundings to nearest, any order of np.sum", "why_tests_cant": "tests try a few random sets and an ad hoc tolerance; the bound is over all coefficients and sizes", "anchors": ["spherepy/spherepy.py: vispht, vspht", "spherepy/ops.py: sinLdot_fc, L_fc, divsin_fc", "spherepy/pysphi.py: sc_to_fc, fc_to_sc", "src/csphi.c: sc_to_fc, fc_to_sc"]}
{"id": "C99", "title": "kiss_fft in doubles", "statement": "For every length n <= 2^31 and both directions, kiss_fft_alloc(n) followed by kiss_fft on a buffer of n complex doubles with moduli at most X (2^-900 <= X <= 2^900), computed in doubles with library cos and sin accurate to one ulp, succeeds without undefined behaviour and every output is within n X 2^-53 S of the exact discrete Fourier transform, S the sum of 165 + 5p over the prime factors p of n with multiplicity; if n has no prime factor above 5, S <= 190 log2 n. The result does not depend on the contents of the freshly allocated work buffer.", "quantifier": "all lengths, both directions, all buffers, all roundings to nearest, all contents of fresh memory", "why_tests_cant": "tests check a few lengths with a tolerance; the bound covers every length (every radix, including the generic one) and every buffer", "anchors": ["src/kiss_fft.c: kiss_fft_alloc, kf_factor, kf_work, kf_bfly2, kf_bfly3, kf_bfly4, kf_bfly5, kf_bfly_generic, kiss_fft", "src/_kiss_fft_guts.h: C_MUL, C_ADD, C_SUB, kf_cexp"]}
{"id": "C100", "title": "Scalar analysis in doubles with the C extension", "statement": "spht(p, N, M) with the compiled extension, whose fast convolution runs on the bundled kiss_fft, succeeds in double arithmetic for every pattern whose R doubled rows (R <= 2^28) have samples of modulus at most C (2^-700 <= C <= 2^400), N <= 1000, and returns every coefficient (n, m) within sqrt((2n+1)/4pi) ((n+1)(n+4)^3 2^-43 C + (2n+1) sqrt(R+1) (20 d + 2^-34 log2(4R)^2 C)) of the exact analysis of the same samples, d the accuracy of np.fft.fft2 on them. The result does not depend on the content of the memory the extension allocates. ispht followed by this analysis returns every coefficient within an explicit bound.", "quantifier": "all samples, grids, nmax, mmax, roundings to nearest, libraries meeting the accuracy hypotheses, contents of fresh memory", "why_tests_cant": "tests check a handful of patterns against a tolerance; the bound holds for all samples and grid sizes", "anchors": ["spherepy/spherepy.py: spht, ispht", "src/csphi.c: fc_to_sc, bnm_fc, hkm_fc, SData, FindQ, ynunm", "src/kiss_fft.c: kiss_fft"]}
{"id": "C101", "title": "Vector analysis in doubles with the C extension", "statement": "vspht(p, N, M) with the compiled extension and its kiss_fft succeeds in double arithmetic under the conditions of C100 and returns both coefficients of every mode with n >= 1 within an explicit bound of the exact analysis of the same samples: (n(n+1))^-1/2 times the bound of C100 enlarged by the factor R/2+M+3 of the differentiations. The result does not depend on fresh memory, and vispht followed by this analysis returns both coefficients of every mode within an explicit bound.", "quantifier": "all samples of both components, grids, nmax, mmax, roundings to nearest, libraries meeting the accuracy hypotheses, contents of fresh memory", "why_tests_cant": "tests check a handful of patterns against a tolerance; the bound holds for all samples and grid sizes", "anchors": ["spherepy/spherepy.py: vspht, vispht", "spherepy/ops.py: sinLdot_fc, sin_fc, dtheta_fc, dphi_fc", "src/csphi.c: fc_to_sc, bnm_fc, hkm_fc, SData", "src/kiss_fft.c: kiss_fft"]}
{"id": "C102", "title": "Spherical Bessel functions j_n in doubles", "statement": "sbesselj(x, N) in double arithmetic, N <= 2^16, with library values of cos, sin and x**2 accurate to a few units: for 2^-46 <= |x| <= 3/2 and N >= 2 it returns N values, out[n] within a relative error 60(n+1)(N+63)2^-53 (plus underflow) of j_n(x); for 3/2 < |x| <= N-1/2 it returns out[n] within 370(1+|x|)(N+63)2^-53 |j_n| + 160(N+63)2^-53 of j_n(x), unless some j_k(x) with k < |x| is at most 90(N+63)2^-53, in which case it may divide by zero. Outside it is wrong: sbesselj(5.76345919689455, 7) divides by zero sbesselj(2^-60+2^-87, 2) returns 128 for j_1 = 2.9e-19, and beyond |x| = N-1/2 the sum of the loop may pass through huge values: sbesselj(3.8729833462074175, 2) returns j_1 too small by more than 0.02.", "quantifier": "all x, N, roundings to nearest, libraries meeting the accuracy hypotheses", "why_tests_cant": "error growth over all orders and arguments; exact cancellations occur at isolated doubles", "anchors": ["spherepy/sbessel.py: sbesselj"]}
{"id": "C103", "title": "Spherical Bessel functions y_n and Hankel functions in doubles", "statement": "sbessely(x, N) in double arithmetic, for every x != 0 with |x| <= 2^900, 2 <= N <= 2^20, library values of cos, sin and x**2 accurate to a few units and sqrt(j_{N-1}^2 + y_{N-1}^2) <= 2^1000 (nothing overflows), returns N values with out[n] within (4n^2+24n+12) 2^-53 sqrt(j_n(x)^2 + y_n(x)^2) of y_n(x). sbesselh1 and sbesselh2 have the values of sbesselj as real parts and plus or minus these as imaginary parts.", "quantifier": "all x, N, roundings to nearest, libraries meeting the accuracy hypotheses", "why_tests_cant": "error growth of a three-term recurrence over all orders and arguments", "anchors": ["spherepy/sbessel.py: sbessely, sbesselh1, sbesselh2"]}
{"id": "C104", "title": "Analysis in doubles with the Python routines, convolution included", "statement": "spht and vspht in double arithmetic when the C extension is not used, with the fast convolution of pysphi.py (kernel table -1j/nu, zero-padding to a length with prime factors 2, 3, 5 and 7, two forward FFTs, product, inverse FFT, factor 4*pi, slice) carried out in doubles: if every FFT of NumPy is accurate to kappa (one-dimensional, relative to the sum of moduli) or delta (two-dimensional), np.sum adds in some order and 1j**m is within (|m|+4)2^-50 of i^m (C105), the call succeeds and every coefficient is within an explicit bound of the coefficient exact arithmetic gives; ispht followed by spht, and vispht followed by vspht, return the coefficients to within explicit bounds.", "quantifier": "all sample arrays up to 2^28 doubled rows, nmax <= 1000, roundings to nearest, NumPy FFTs meeting the accuracy hypotheses", "why_tests_cant": "accuracy over all data, sizes and FFT implementations", "anchors": ["spherepy/pysphi.py: s_data, hkm_fc, bnm_vec_fc, fc_to_sc", "spherepy/spherepy.py: spht, vspht"]}
{"id": "C105", "title": "Powers of the imaginary unit in the Python routines", "statement": "The power 1j ** m that the Python routines use in every order is exactly i^m for |m| <= 100 and within (|m|+4) 2^-50 of i^m for |m| <= 1000 (where CPython switches to polar coordinates), if libm's atan2(1,0), sin and cos are accurate to 2^-52; hence ispht and spht with the Python routines meet their double-precision error bounds (C93, C104) for every order up to 1000.", "quantifier": "all orders up to 1000, all roundings to nearest, all libm meeting the accuracy hypothesis", "why_tests_cant": "an accuracy statement over every order and every libm within the hypothesis; the switch at 100 is invisible in small tests", "anchors": ["spherepy/pysphi.py: bnm_vec_fc, fcvec_m_sc", "spherepy/spherepy.py: spht, ispht"]}
{"id": "C106", "title": "Accuracy from the user's array to the coefficients, in double precision", "statement": "Building ScalarPatternUniform(A) (or TransversePatternUniform(T, P)) from arrays of doubles and calling spht (vspht) succeeds in double-precision arithmetic, and every coefficient is within an explicit bound of the coefficient the same two calls give in exact arithmetic on the same values; nothing is assumed of the environment except the accuracy of NumPy's one-dimensional FFTs, that np.sum adds in some order, and a libm accurate to about an ulp. This holds with the Python routines and with the compiled extension.", "quantifier": "all arrays of doubles of at least two rows and any even number of columns, the moduli bounded by some C with 2^-700 <= C <= 2^399, whose pole samples are zero or at least 2^-500 in magnitude, all N <= 1000, M <= N within the sampling limits, all roundings to nearest, all one-dimensional FFTs within kappa", "why_tests_cant": "an error bound over every array and every conforming FFT, sum order and libm", "anchors": ["spherepy/spherepy.py: continue_sphere, double_sphere, ScalarPatternUniform, TransversePatternUniform, spht, vspht", "spherepy/pysphi.py: fc_to_sc", "spherepy/ops.py: sin_fc", "src/csphi.c: fc_to_sc"]}
{"id": "C107", "title": "Synthesis and the round trip in double precision over NumPy's one-dimensional FFTs", "statement": "ispht and vispht in double-precision arithmetic return samples of the harmonic series (of the tangential field) of the given coefficients within an explicit bound, and spht(ispht(c)) and vspht(vispht(c)) return every coefficient within an explicit bound, with the Python routines and with the compiled extension; the two-dimensional FFTs are the row and column passes NumPy makes, and nothing is assumed of the environment but the accuracy of the one-dimensional FFTs, the order of np.sum and the libm.", "quantifier": "all coefficient sets with N <= 1000 whose parts are bounded by some C with 2^-690 <= C <= 2^300 (2^700 for the synthesis alone), all grids with nr >= N+2, even nc >= 2M+2 and fewer than 2^53 doubled samples, all roundings to nearest, all one-dimensional FFTs within kappa", "why_tests_cant": "an error bound over every coefficient set, grid and conforming FFT", "anchors": ["spherepy/spherepy.py: ispht, vispht, spht, vspht", "spherepy/pysphi.py: sc_to_fc, fc_to_sc", "src/csphi.c: sc_to_fc, fc_to_sc"]}
{"id": "C108", "title": "Limits of any integer type work alike with both backends", "statement": "spht, vspht, ispht and vispht give the same result (or the same exception) with the C extension and with the Python routines, whether the limits passed to them or stored in the coefficient set are Python ints or NumPy integers; an integer that does not fit the C routine is refused before the routine runs.", "quantifier": "all patterns and coefficient sets below 2^31 samples, all limits of both integer types, all argument objects of the wrapper, any state of the allocated memory", "why_tests_cant": "a statement about every argument object and every size of integer", "anchors": ["src/csphi_wrap.c: _wrap_fc_to_sc, _wrap_sc_to_fc, SWIG_AsVal_int, SWIG_AsVal_long, obj_to_array_no_conversion", "spherepy/spherepy.py: spht, vspht, ispht, vispht"]}
{"id": "C109", "title": "The same computation in different environments agrees in doubles", "statement": "Running spht, vspht, ispht or vispht on the same user data in two environments - with or without the compiled extension, with different FFT libraries, different summation orders of np.sum, different math libraries and different contents of freshly allocated memory - gives the same limits and shapes and values that differ by at most an explicit bound in the size of the data.", "quantifier": "all user arrays and coefficient sets in the stated range of sizes and magnitudes, all limits up to degree 1000, all pairs of conforming environments, both backends each", "why_tests_cant": "a test compares two installed environments on some inputs", "anchors": ["spherepy/spherepy.py: spht, vspht, ispht, vispht, use_cext", "spherepy/pysphi.py", "src/csphi.c"]}
{"id": "C110", "title": "Modes that are not there change no bit", "statement": "In double precision, padding a coefficient set with zero coefficients up to larger nmax and mmax leaves every double of the pattern that ispht (vispht) synthesises on a given grid unchanged, with either backend; and asking spht (vspht) for more orders at the same nmax leaves every double of the coefficients of the smaller set unchanged, with either backend and whatever freshly allocated memory contains.", "quantifier": "all coefficient sets and zero-padded versions of them, all grids large enough for both, all patterns, all nmax, all pairs of order limits, both backends", "why_tests_cant": "a test compares a few padded sets on a few grids; bit equality must hold for every set and every pair of limits", "anchors": ["spherepy/spherepy.py: ispht, vispht, spht, vspht", "spherepy/pysphi.py: sc_to_fc, fcvec_m_sc, fc_to_sc, bnm_vec_fc, ynunm", "src/csphi.c: sc_to_fc, fcvec_m_sc, fc_to_sc, bnm_fc, ynunm"]}
{"id": "C111", "title": "Norms and comparisons in doubles", "statement": "In double precision, for arrays of N values that are 0 or of a magnitude between 2^-500 and 2^400: L2_patt of a scalar pattern is off by at most (N+8) 2^-52 relative, of a transverse pattern by at most (N+12) 2^-52; LInf_coef and LInf_patt of scalar objects are off by at most 2^-52 relative, of vector objects by at most 5*2^-52; compare_relative of two sets of equal size is off by at most (3N+13) 2^-52 relative and is 0 exactly when the sets are equal; L2_coef of a vector set is off by at most (N+12) 2^-52 from the square root of 2 times the norm of its first component (the code reads the first component twice). For all doubles below 2^500, LInf_coef(c - d) and LInf_patt(p - q) are 0 exactly when the two objects hold the same values; L2_coef(c - d) can be 0 for different sets because squares underflow.", "quantifier": "all patterns and coefficient sets of doubles in the stated range, all sizes up to 2^50 (2^48 for compare_relative), all summation orders of np.sum, all roundings to nearest, every hypot and pow accurate to one unit in the last place", "why_tests_cant": "error bounds must hold for every array of doubles and every order in which NumPy may add; a test sees a few arrays and one order", "anchors": ["spherepy/spherepy.py: L2_coef, L2_patt, LInf_coef, LInf_patt, compare_relative", "spherepy/spherepy.py: ScalarCoefs.__sub__, ScalarPatternUniform.__sub__"]}
{"id": "C112", "title": "Calculus on the sphere through the transforms", "statement": "For a band-limited function f with coefficients v and any grid that resolves its limits: vspht of the sampled surface gradient of f returns (0, -sqrt(n(n+1)) v) and vispht of that set returns the samples; vspht of the sampled r x grad f returns (i sqrt(n(n+1)) v, 0); for the tangential field of a vector set c, window(sqrt(n(n+1))) on c.scoef2 followed by ispht gives the samples of its divergence, and window(i sqrt(n(n+1))) on c.scoef1 those of the radial component of its curl; window(-n(n+1)) followed by ispht gives the samples of the surface Laplacian of f, and spht of them returns the same set; window(-1/(n(n+1))) solves Poisson's equation for a right-hand side of zero mean; window(exp(-n(n+1)t)) followed by ispht gives the samples of the solution of the heat equation at time t.", "quantifier": "all coefficient sets, all grids that resolve them, both backends (exact arithmetic)", "why_tests_cant": "analytic identities for every function, size and grid, including the limits at the poles", "anchors": ["spherepy/spherepy.py: spht, ispht, vspht, vispht", "spherepy/spherepy.py: ScalarCoefs.window, VectorCoefs.scoef1, VectorCoefs.scoef2"]}
{"id": "C113", "title": "Products of patterns without aliasing", "statement": "If p = ispht(c) and q = ispht(d) on a grid that resolves the sums of the limits of c and d, then spht(p*q) with these summed limits returns exactly the coefficients (integrals against the conjugate harmonics) of the product of the two functions, and ispht of the result is p*q. The summed limits are needed: Y_11 times Y_11 is a non-zero multiple of Y_22.", "quantifier": "all pairs of coefficient sets, all grids that resolve the sum of the limits, both backends (exact arithmetic)", "why_tests_cant": "requires that every product of two harmonics is a finite combination of harmonics of bounded degree", "anchors": ["spherepy/spherepy.py: ScalarPatternUniform.__mul__", "spherepy/spherepy.py: spht, ispht"]}
{"id": "C114", "title": "Power patterns", "statement": "mag2 of a pattern synthesised from a scalar set, or mag2 (|Etheta|^2+|Ephi|^2) of a transverse pattern synthesised from a vector set, on a grid that resolves twice its limits, makes a scalar pattern which spht with twice the limits analyses exactly (ispht returns it); the coefficient [0,0] times sqrt(4 pi) is c.power() in the scalar case, and the sum of the squared moduli of both components over n>=1 in the vector case (Parseval for tangential fields).", "quantifier": "all scalar and vector coefficient sets, all grids that resolve twice the limits, both backends (exact arithmetic)", "why_tests_cant": "requires that |E|^2 of every band-limited tangential field is band limited although its components are not scalar series", "anchors": ["spherepy/spherepy.py: mag2", "spherepy/spherepy.py: spht, ispht, vispht", "spherepy/spherepy.py: ScalarCoefs.power"]}
{"id": "C115", "title": "Isotropic filters commute with rotations", "statement": "For every window f(n) and every band-limited function F on the sphere there is one filtered function G such that, for every orthogonal matrix Q, the chain spht, window, ispht applied to the samples of F(Qx) gives the samples of G(Qx), whatever the grids of the input and of the output (if they resolve the degree) and whatever the backends; likewise for tangential fields turned by Q, with two windows on the two components, through vspht and vispht.", "quantifier": "all windows, band-limited functions, orthogonal matrices and pairs of grids (exact arithmetic)", "why_tests_cant": "ranges over all rotations, functions and grids", "anchors": ["spherepy/spherepy.py: ScalarCoefs.window", "spherepy/spherepy.py: spht, ispht"]}
{"id": "C116", "title": "Resampling", "statement": "spht of the samples of a band-limited function on one grid followed by ispht on another grid gives its samples on the other grid, and where the grids are nested the values at the common points are the ones that went in; likewise vspht and vispht for tangential fields.", "quantifier": "all band-limited functions and fields, all pairs of grids that resolve them, all pairs of backends (exact arithmetic)", "why_tests_cant": "ranges over all functions and all pairs of grids", "anchors": ["spherepy/spherepy.py: spht, ispht, vspht, vispht"]}
{"id": "C117", "title": "Gradient and solenoidal parts of a vector set", "statement": "For a well-formed vector set c and its tangential field E: window(-1/sqrt(n(n+1))) on c.scoef2 and window(-i/sqrt(n(n+1))) on c.scoef1 give coefficient sets whose ispht patterns sample two functions f and g with E = grad f + r x grad g. E has zero surface divergence exactly when every coefficient of scoef2 with n>=1 is zero, and zero radial curl exactly when every coefficient of scoef1 with n>=1 is zero; vspht of the samples of a band-limited field on a resolving grid therefore returns a zero second (first) component exactly when the field is divergence free (curl free).", "quantifier": "all vector sets and band-limited tangential fields, all resolving grids, both backends (exact arithmetic)", "why_tests_cant": "an equivalence over every field, including the poles", "anchors": ["spherepy/spherepy.py: vspht, vispht, ispht", "spherepy/spherepy.py: ScalarCoefs.window, VectorCoefs.scoef1, VectorCoefs.scoef2"]}
{"id": "C118", "title": "Filters are convolutions with zonal kernels", "statement": "The window 4 pi/(2n+1) a_n (n<=K, else 0) followed by ispht samples the convolution over the sphere of the function with the kernel sum_{n<=K} a_n P_n(x.y); every window f acts as the convolution with sum_n (2n+1)/(4 pi) f(n) P_n(x.y), and f=1 reproduces the function. A set with c[n,m] = g(n) conj(Y_nm(x0)) is synthesised to a pattern that depends only on the angle to x0: sum_n g(n) (2n+1)/(4 pi) P_n(x.x0).", "quantifier": "all coefficient sets, kernels, windows, directions and resolving grids, both backends (exact arithmetic)", "why_tests_cant": "an identity between an integral over the sphere and a filter, for all functions and kernels", "anchors": ["spherepy/spherepy.py: ScalarCoefs.window", "spherepy/spherepy.py: ispht"]}
{"id": "C119", "title": "Saved files keep every value, infinities, NaN and signed zeros included", "statement": "load_coef of a file written by save_coef, and load_fdata of a file written by save_patt, give back every entry exactly as it was, for entries with infinite, NaN and negative-zero parts too.", "quantifier": "all well-formed sets and arrays of any binary64 values", "why_tests_cant": "ranges over every value, every position and every combination of special values of real and imaginary part", "anchors": ["spherepy/file.py: save_coef, load_coef", "spherepy/file.py: save_patt, load_fdata"]}
{"id": "C120", "title": "sbessely and the Hankel functions beyond the double range: an overflow is never masked", "statement": "sbessely(x, N) returns N binary64 values for every x with 2^-500 <= |x| <= 2^500; up to the first overflow they are the accurately computed ones; the first value that is not finite is an infinity, the next one too, and every later one is NaN, so no finite (wrong) number ever follows an overflow. For |x| <= 1 this happens before index 1803. sbesselh1 and sbesselh2 hold j_n +- i y_n exactly where y_n is finite and nonzero; where it is not finite their real part is NaN, so j_n is lost too.", "quantifier": "all x with 2^-500 <= |x| <= 2^500, all N up to 2^20, all orders, every IEEE round-to-nearest and every accurate sine, cosine and square", "why_tests_cant": "ranges over all arguments and all orders, with a state (infinity, NaN) that depends on the whole recurrence", "anchors": ["spherepy/sbessel.py: sbessely", "spherepy/sbessel.py: sbesselh1", "spherepy/sbessel.py: sbesselh2"]}
{"id": "C121", "title": "An interrupted save does not corrupt values silently", "statement": "If save_coef or save_patt is interrupted at any point of its writing, then loading what is in the file reports an error, or every value it returns is the saved one or 0.", "quantifier": "all sets and patterns of finite numbers, all crash points (every byte of the text), all previous contents of the file", "why_tests_cant": "ranges over every position at which a write can stop, in every file", "anchors": ["spherepy/file.py: save_coef, load_coef", "spherepy/file.py: save_patt, load_fdata, load_patt"]}
{"id": "C122", "title": "Threads can use shared objects concurrently", "statement": "If several threads use the library at the same time on coefficient sets and patterns created before, and no thread changes such a shared object in place, then each thread gets exactly the results and exceptions it would get alone, the shared objects stay as they were, and no thread can be kept from finishing by the others.", "quantifier": "all numbers of threads, all programs of library calls of each thread, all schedules (a switch before any access to an array), all backend settings", "why_tests_cant": "ranges over every interleaving of every set of programs", "anchors": ["spherepy/spherepy.py: ScalarCoefs, VectorCoefs, ScalarPatternUniform, TransversePatternUniform", "spherepy/spherepy.py: spht, vspht, ispht, vispht, L2_coef, LInf_coef", "spherepy/ops.py: sin_fc, fix_even_row_data_fc, pad_rows_fdata"]}
{"id": "C123", "title": "use_cext can be switched at any time", "statement": "For programs with sensible literal arguments, the values and exceptions a program gets do not depend on the history of the global use_cext (set by the program or by another thread, before any call), and every object it makes stays well-formed.", "quantifier": "all programs (any length) of factories, arithmetic, slices, in-place changes and transforms with non-negative limits and fewer than 2^28 rows; all histories of use_cext; all threads and schedules; exact arithmetic", "why_tests_cant": "ranges over all histories of calls and of the global", "anchors": ["spherepy/spherepy.py: use_cext, spht, vspht, ispht, vispht", "spherepy/spherepy.py: ScalarCoefs, VectorCoefs, ScalarPatternUniform, TransversePatternUniform"]}
{"id": "C124", "title": "Drift of repeated round trips in doubles", "statement": "Synthesising and analysing the same field again and again (spht(ispht(c)) or vspht(vispht(c))), each time on any sufficiently fine even grid and with either backend, never fails, never changes the limits, and moves no coefficient by more than the sum of the explicit single-trip bounds of C107 taken at twice the initial size, as long as that sum stays below the initial size of the coefficients.", "quantifier": "all lists of round trips (any number, any grids, any backends), all coefficient sets with nmax <= 1000 and values up to 2^299, all roundings without overflow, all FFTs of given accuracy", "why_tests_cant": "ranges over all histories of round trips and all doubles; errors could grow geometrically instead of adding up", "anchors": ["spherepy/spherepy.py: spht, ispht, vspht, vispht"]}
{"id": "C125", "title": "Malformed vector coefficient files", "statement": "load_vcoef rejects a file unless the header is followed by exactly one data line per mode, one line 'break' and exactly one data line per mode.  (Too many data lines in a block raise IndexError.  Violated otherwise: missing data lines are read as zeros, a file cut off anywhere after the header is accepted, so is one without 'break' or with several, where each block overwrites the start of the previous one.)", "quantifier": "all files whose header and data lines are readable, with any number of data lines and any number of 'break' lines, all limits", "why_tests_cant": "ranges over all files and all points where a file can have been cut off", "anchors": ["spherepy/file.py: load_vcoef"]}
{"id": "C126", "title": "Pattern files, line by line", "statement": "load_fdata returns, at each position of the announced shape, the value on the last line that addresses it and 0 where there is none (negative indices count from the end); a line that addresses a position outside the shape makes load_fdata, load_patt and load_vpatt raise IndexError. If no two lines disagree about a position, the order of the lines does not matter to any of the three loaders. load_vpatt raises ValueError for two files of different shapes and otherwise keeps the shape and the interior rows of both.", "quantifier": "all files whose header and lines are readable: any shape, any number of lines, any order, duplicates and gaps included", "why_tests_cant": "ranges over all files and all permutations of their lines", "anchors": ["spherepy/file.py: load_fdata, load_patt, load_vpatt"]}
{"id": "C127", "title": "Multiplying by -1, 1j or -1j commutes exactly with the transforms in doubles", "statement": "In double precision, if all samples of a pattern are multiplied by -1, 1j or -1j, then every coefficient that spht and vspht return is multiplied by exactly that number (not just up to rounding), on the Python and on the compiled backend; and if all coefficients are multiplied by it, so is every sample that ispht and vispht return. The same holds for building patterns from arrays, and pattern * u with such a u is that exact multiple. This needs NumPy's own 1-D FFTs and np.sum to have this symmetry.", "quantifier": "all patterns and coefficient sets of doubles, all degrees and orders, both backends, any contents of uninitialised memory, any rounding to doubles that does not overflow; for analysis, an even number of rows of the doubled sphere and rows + nmax at most 2^28", "why_tests_cant": "bit-exact statement about every rounded operation for every input", "anchors": ["spherepy/spherepy.py: spht, vspht, ispht, vispht, double_sphere, ScalarPatternUniform, TransversePatternUniform", "spherepy/pysphi.py: fc_to_sc, sc_to_fc, divsin_fc, sin_fc", "src/csphi.c: fc_to_sc, sc_to_fc", "src/kiss_fft.c: kiss_fft"]}
{"id": "C128", "title": "The slow transforms", "statement": "spht_slow and ispht_slow return exactly what spht and ispht return whenever those return (mathematically for both backends, bit for bit in doubles for the Python backend). spht_slow raises ValueError if nmax or mmax is too large for the pattern or mmax > nmax, as its documentation says; ispht_slow returns samples of the whole series it is given.", "quantifier": "all patterns and coefficient sets, all nmax, mmax, nrows, ncols", "why_tests_cant": "statements about every pattern and every value of the limits, including those the fast transforms refuse", "anchors": ["spherepy/spherepy.py: spht_slow, ispht_slow, spht, ispht", "spherepy/pysphi.py: fc_to_sc, sc_to_fc", "spherepy/ops.py: sin_fc, pad_rows_fdata, fix_even_row_data_fc"]}
{"id": "C129", "title": "sph_harmonic_tp is accurate in doubles", "statement": "In double precision every entry of sph_harmonic_tp(nrows, ncols, n, m) differs from the value of the spherical harmonic Y_nm at the grid point the code uses (C40) by at most (2n+1)(n+6)^3 2^-50 sqrt((2n+1)/(4 pi)), for |m| <= n <= 500; with 50 columns this is the documented grid.", "quantifier": "all nrows up to 2^50, ncols from 1 to 50, all |m| <= n <= 500, any round-to-nearest rounding without overflow, any order of summation in np.sum, any libm and np.exp accurate to about a unit in the last place", "why_tests_cant": "a bound on accumulated rounding errors for every degree, order and grid, every summation order and every conforming libm", "anchors": ["spherepy/spherepy.py: sph_harmonic_tp", "spherepy/pysphi.py: ynunm, ynnm"]}
{"id": "C130", "title": "The helper routines of the compiled extension agree with the Python ones", "statement": "Called from Python with ints and arrays of the required type, csphi.ynnm(n, m) returns what pysphi.ynnm returns; csphi.ynunm(n, m, y) overwrites an array longer than n with what pysphi.ynunm(n, m, len(y)) returns; csphi.FindQ(S) returns the least number from S on with no prime factor beyond 5; csphi.SData(s, rows, nmax) overwrites s with what pysphi.s_data(rows, nmax, len(s)) returns when rows is even and len(s) > rows + nmax. Arguments of the wrong number or type raise TypeError, ints beyond 32 bits OverflowError.", "quantifier": "all n up to 2^30, all m, all array contents and lengths up to 2^30, all argument objects", "why_tests_cant": "every degree, order, length and argument type", "anchors": ["spherepy/csphi.py: ynnm, ynunm, FindQ, SData", "src/csphi_wrap.c: _wrap_ynnm, _wrap_ynunm, _wrap_FindQ, _wrap_SData", "src/csphi.c: ynnm, ynunm, FindQ, SData", "spherepy/pysphi.py: ynnm, ynunm, s_data"]}
{"id": "C131", "title": "A NaN in the data is not hidden", "statement": "With the Python routines, in IEEE arithmetic: building a scalar pattern keeps every NaN sample; if a stored sample is NaN then every coefficient spht returns is NaN; if a coefficient is NaN then every sample ispht returns is NaN; L2 and LInf norms of data with a NaN entry are NaN or +inf; a pattern with NaN samples is not reported as symmetric.", "quantifier": "all patterns and coefficient sets over IEEE values (finite, signed zeros, infinities, NaN), all admissible sizes, degrees and orders, any rounding, any order of summation", "why_tests_cant": "every position of the NaN, every other value and every size; the loops must not skip or overwrite the poisoned entry for any of them", "anchors": ["spherepy/spherepy.py: continue_sphere, double_sphere, spht, ispht, L2_coef, LInf_coef, L2_patt, LInf_patt, ScalarPatternUniform.single_val, is_symmetric", "spherepy/ops.py: fix_even_row_data_fc, pad_rows_fdata, sin_fc", "spherepy/pysphi.py: s_data, hkm_fc, bnm_vec_fc, fc_to_sc, fcvec_m_sc, sc_to_fc"]}
{"id": "C132", "title": "A NaN in the data is not hidden by the compiled extension", "statement": "With the compiled extension, in IEEE arithmetic: kiss_fft of any length with a NaN input gives only NaN outputs; if a stored sample is NaN then every coefficient spht returns is NaN; if a coefficient is NaN then every sample ispht returns is NaN - whatever the uninitialised work buffers held, and without reading or writing outside a buffer.", "quantifier": "all inputs over IEEE values, all transform lengths below 2^32 (every factorisation: radix 2, 3, 4, 5 and generic butterflies), all admissible sizes, degrees and orders with rows + 2 + nmax at most 2^30, any rounding, any libm, any content of fresh memory", "why_tests_cant": "every transform length has its own factorisation and every position of the NaN its own path through the butterflies; the content of malloc'ed memory cannot be controlled", "anchors": ["src/kiss_fft.c: kf_bfly2, kf_bfly3, kf_bfly4, kf_bfly5, kf_bfly_generic, kf_work, kf_factor, kiss_fft_alloc, kiss_fft", "src/csphi.c: SData, hkm_fc, bnm_fc, fc_to_sc, fcvec_m_sc, sc_to_fc", "spherepy/spherepy.py: spht, ispht"]}
{"id": "C133", "title": "A NaN in the data is not hidden by the vector transforms", "statement": "In IEEE arithmetic, with the Python routines and with the compiled extension: building a transverse pattern keeps every NaN sample; if a stored sample of the theta or of the phi component is NaN then vspht(nmax >= 1) returns a set in which both numbers of every mode of degree >= 1 are NaN; if a coefficient of either set is NaN (nmax >= 1) then every sample of both components of vispht is NaN.", "quantifier": "all transverse patterns and vector coefficient sets over IEEE values, all admissible sizes, degrees and orders (nmax >= 1; with the extension rows + 2 + nmax at most 2^30), any rounding, any libm, any content of fresh memory", "why_tests_cant": "every position of the NaN in either component or set, every other value and every size", "anchors": ["spherepy/spherepy.py: TransversePatternUniform.__init__, vspht, vispht, ScalarCoefs.window, VectorCoefs.__init__", "spherepy/ops.py: sin_fc, divsin_fc, dtheta_fc, dphi_fc, sinLdot_fc, L_fc", "src/csphi.c: fc_to_sc, sc_to_fc"]}
{"id": "C134", "title": "An infinity in the data is not hidden by the transforms and the norms", "statement": "In IEEE arithmetic, with the Python routines and with the compiled extension: building a pattern keeps every non-finite sample (NaN or an infinity) non-finite; if one stored sample is not finite then no coefficient returned by spht is finite, and no number of a mode of degree >= 1 returned by vspht is finite; if one coefficient is not finite then no sample returned by ispht or vispht is finite; kiss_fft with one non-finite input has no finite output; the L2 and LInf norms are NaN or +inf. Hence one finite coefficient certifies that all samples were finite: infinities do not cancel to plausible numbers.", "quantifier": "all patterns and coefficient sets over IEEE values, all admissible sizes, degrees and orders (vector transforms: nmax >= 1; with the extension rows + 2 + nmax at most 2^30), any rounding, any libm, any content of fresh memory", "why_tests_cant": "every position and sign of the infinities, every combination with other non-finite and finite values and every size", "anchors": ["spherepy/spherepy.py: ScalarPatternUniform.__init__, TransversePatternUniform.__init__, spht, ispht, vspht, vispht, L2_coef, LInf_coef, L2_patt, LInf_patt", "spherepy/pysphi.py: fc_to_sc, sc_to_fc", "spherepy/ops.py: sin_fc, divsin_fc, sinLdot_fc, L_fc", "src/csphi.c: fc_to_sc, sc_to_fc", "src/kiss_fft.c: kiss_fft"]}
{"id": "C135", "title": "The energies computed in doubles are the energies of the function (Parseval)", "statement": "power() of a coefficient set, computed in doubles, is the integral over the sphere of |f|^2, f the function with those coefficients, up to an error (K+6) 2^-52 relative plus K 2^-990 (K the number of modes); entry n of angular_power_spectrum() is in the same sense the integral of |f_n|^2, f_n the part of f of degree n. If the set is only within e of the coefficients of f (say, returned by spht), the error is at most d + (K+6) 2^-52 (E+d) + K 2^-990 with E the integral and d = e (2 sqrt(K E) + K e); in particular for building the pattern from the user's array, analysing it with the Python routines or the extension and summing, all in doubles, with e the error bound of C106.", "quantifier": "all coefficient sets with at most 2^50 values of modulus at most 2^400 (zeros and values that underflow when squared included); for measured sets all functions of energy at most 2^798; every summation order NumPy may use, every rounding to nearest, every hypot with relative error at most 2^-52 above 2^-500 and a small result below; for the composition all user arrays, sizes and limits of C106", "why_tests_cant": "every coefficient set, rounding error and summation order; the exact integral is not available to a test", "anchors": ["spherepy/spherepy.py: ScalarCoefs.power, ScalarCoefs.angular_power_spectrum, ScalarPatternUniform.__init__, spht", "spherepy/pysphi.py: fc_to_sc", "src/csphi.c: fc_to_sc"]}
{"id": "C136", "title": "The round trip through samples keeps the energy, in doubles", "statement": "Synthesise a coefficient set with ispht and analyse the samples with spht (Python routines or extension), all in doubles: both calls succeed, and whatever power() returns for the set before and for the set after, both are within explicit bounds of the integral E of |f|^2 over the sphere, f the function with the original coefficients, and they differ by at most d + (K+6) 2^-52 (2E + d) + 2K 2^-990 with d = e (2 sqrt(K E) + K e), e the round-trip bound of C107, K the number of modes.", "quantifier": "all coefficient sets with parts at most C <= 2^300 and degree at most 1000, all grids with nrows >= nmax+2, even ncols >= 2 mmax+2 within the sizes of C107, every summation order, rounding, hypot, libm, FFT within the stated accuracy and any content of fresh memory", "why_tests_cant": "every coefficient set, grid and rounding error; the exact energy is not available to a test", "anchors": ["spherepy/spherepy.py: ispht, spht, ScalarCoefs.power", "spherepy/pysphi.py: sc_to_fc, fc_to_sc", "src/csphi.c: fc_to_sc"]}
{"id": "C137", "title": "Parseval for vector coefficient sets", "statement": "For a vector set c without a monopole entry (vspht and the constructors return no other), c.scoef1.power() + c.scoef2.power() is the integral of |E_theta|^2 + |E_phi|^2 over the sphere of the tangential field with these coefficients; each power alone is the energy of the divergence-free and of the curl-free part; vispht(c) samples a field with that energy and vspht of the samples of a band-limited field returns a set with that energy.", "quantifier": "all vector coefficient sets with zero monopole entries, all degrees and orders, all grids with nrows >= nmax+2 and even ncols >= 2 mmax+2, both back ends, in exact arithmetic", "why_tests_cant": "an integral over the sphere of every field with every coefficient set", "anchors": ["spherepy/spherepy.py: vispht, vspht, ScalarCoefs.power, VectorCoefs", "spherepy/pysphi.py: sc_to_fc, fc_to_sc"]}
{"id": "C138", "title": "The energy of vector sets, in doubles", "statement": "For a vector set without monopole whose entries are doubles, the sum of whatever scoef1.power() and scoef2.power() return is within (K+6) 2^-52 E + 2 K 2^-990 of the energy E of the tangential field over the sphere, K the number of modes. vispht followed by vspht (Python routines or extension), all in doubles, succeeds, and the sums of the powers before and after are within explicit bounds of E and of each other, with d = 2 e (sqrt(2 K E) + K e), e the round-trip bound of C107. A set returned by vspht has monopole entries exactly 0 whatever the FFT and sums return.", "quantifier": "all vector sets with parts at most C <= 2^300 and degree at most 1000 (one set: values at most 2^400), all grids with nrows >= nmax+2, even ncols >= 2 mmax+2 within the sizes of C107, every summation order, rounding, hypot, libm and FFT within the stated accuracy and any content of fresh memory", "why_tests_cant": "every coefficient set, grid and rounding error; the exact energy is not available to a test", "anchors": ["spherepy/spherepy.py: vispht, vspht, ScalarCoefs.power, VectorCoefs.__init__, ScalarCoefs.window", "spherepy/pysphi.py: sc_to_fc, fc_to_sc", "src/csphi.c: fc_to_sc"]}
{"id": "C139", "title": "The spectra of a vector set give the energy of the field degree by degree", "statement": "For a vector set without monopole, scoef1.angular_power_spectrum()[n] + scoef2.angular_power_spectrum()[n] is the energy over the sphere of the part of degree n of the tangential field, and all entries add up to the energy of the field. For a set of doubles the entries the call returns satisfy this up to a relative error (2 min(n, mmax) + 7) 2^-52 and (2 min(n, mmax) + 1) 2^-989 lost to underflow.", "quantifier": "all vector coefficient sets with zero monopole entries, all degrees; in doubles all values at most 2^400, at most 2^50 modes, every summation order and every hypot within the stated accuracy", "why_tests_cant": "an integral over the sphere for every coefficient set and degree", "anchors": ["spherepy/spherepy.py: ScalarCoefs.angular_power_spectrum, VectorCoefs"]}
{"id": "C140", "title": "The energy of the gradient from the coefficients", "statement": "After c.window(w) with w[n] = sqrt(n(n+1)), c.power() is the integral over the sphere of |grad f|^2, f the function with the coefficients c had before; the same integral is sum n(n+1) c.angular_power_spectrum()[n], it is at most nmax(nmax+1) times the integral of |f|^2 and at least twice the energy outside the monopole, and the powers of the set vspht returns for the sampled gradient add up to it.", "quantifier": "all scalar coefficient sets, all degrees and orders, all grids with nrows >= nmax+2 and even ncols >= 2 mmax+2, both back ends, in exact arithmetic", "why_tests_cant": "an integral of derivatives over the sphere for every coefficient set", "anchors": ["spherepy/spherepy.py: ScalarCoefs.window, ScalarCoefs.power, ScalarCoefs.angular_power_spectrum, vspht"]}
{"id": "C141", "title": "Analysis with smaller limits is the best approximation", "statement": "spht(p, nmax, mmax) of the samples of a function of larger degree or order returns coefficients of the function of degree nmax and order mmax closest to it in the mean square over the sphere; no other coefficients are as close, and the squared distance left is the energy of the function less c.power().", "quantifier": "all band-limited functions, all smaller limits, all grids with nrows >= N'+2 and even ncols >= 2M'+2 for the function's own degree N' and order M', both back ends, in exact arithmetic", "why_tests_cant": "a minimum over all coefficient sets, of an integral, for every function", "anchors": ["spherepy/spherepy.py: spht, ScalarCoefs.power"]}
{"id": "C142", "title": "Vector analysis with smaller limits is the best approximation", "statement": "vspht(p, nmax, mmax) of the samples of a tangential field of larger degree or order returns coefficients of the field of degree nmax and order mmax closest to it in the mean square over the sphere; no other coefficients of degree at least 1 are as close, and the squared distance left is the energy of the field less the powers of the two sets.", "quantifier": "all band-limited tangential fields, all smaller limits, all grids with nrows >= N'+2 and even ncols >= 2M'+2 for the field's own degree N' and order M', both back ends, in exact arithmetic", "why_tests_cant": "a minimum over all vector coefficient sets, of an integral, for every field", "anchors": ["spherepy/spherepy.py: vspht, VectorCoefs, ScalarCoefs.power"]}
{"id": "C143", "title": "Analysis of an arbitrary function is near-best", "statement": "Sample any function on the sphere, band-limited or not, and analyse it with spht(p, nmax, mmax): if some function of degree nmax and order mmax is within eps of it everywhere, the coefficients returned differ from that function's by at most sqrt(2) pi eps in the root of the sum of squares, and the samples ispht(c) gives on any resolving grid are within (1 + (nmax+1) sqrt(pi/2)) eps of the sampled function.", "quantifier": "all functions on the sphere (no continuity assumed), all limits, all grids with nrows >= nmax+2 and even ncols >= 2 mmax+2 for input and output, both back ends, in exact arithmetic", "why_tests_cant": "the sampled function is arbitrary and so is its approximation", "anchors": ["spherepy/spherepy.py: ScalarPatternUniform, continue_sphere, spht, ispht"]}
{"id": "C144", "title": "Analysis of an arbitrary tangential field is near-best", "statement": "Sample any tangential field on the sphere, band-limited or not, and analyse it with vspht(p, nmax, mmax): if some field of degree nmax and order mmax is within eps of it everywhere, the coefficients returned differ from that field's by at most sqrt(2) pi eps in the root of the sum of squares, and the samples vispht(c) gives on any resolving grid are within (1 + sqrt(nmax (nmax+2) pi/2)) eps of the sampled field.", "quantifier": "all tangential fields (no continuity assumed), all limits, all grids with nrows >= nmax+2 and even ncols >= 2 mmax+2 for input and output, both back ends, in exact arithmetic", "why_tests_cant": "the sampled field is arbitrary and so is its approximation", "anchors": ["spherepy/spherepy.py: TransversePatternUniform, continue_sphere, vspht, vispht"]}
{"id": "C145", "title": "A truncated set is the best approximation of smaller degree", "statement": "c[0:k,:] describes the function of degree k (and order at most mmax) closest in the mean square over the sphere to the function c describes; no other coefficients are as close; the squared distance is c.power() less the power of c[0:k,:] and also the sum of the entries of c.angular_power_spectrum() above k; the power spectrum of c[0:k,:] is the beginning of that of c.", "quantifier": "all scalar coefficient sets, all 0 <= k <= nmax, in exact arithmetic", "why_tests_cant": "a minimum over all coefficient sets, of an integral, for every set", "anchors": ["spherepy/spherepy.py: ScalarCoefs.__getitem__, ScalarCoefs.power, ScalarCoefs.angular_power_spectrum"]}
