# Formal model of spherepy in Lean 4: design

`properties.jsonl` lists the properties, `MANIFEST.json` maps each to its theorems and status, `lean/Verif` is the
model and the proofs, `seeded/LOG.jsonl` records the wrong programs the theorems were tried on.

## 1. Trusted base

1. **Lean's kernel** (4.33.0) and Mathlib's definitions of the objects used in the statements (ℝ, ℂ, `Real.sin`,
   `Complex.exp`, the interval integral, `Polynomial`, `Finset.sum`, ...).
2. **Axioms.** Every theorem depends on at most `propext`, `Classical.choice` and `Quot.sound`, the three axioms of Lean's
   own library; nothing is added, and no theorem rests on compiled code. (`vcheck` prints the axioms of each claim.)
3. **The model is faithful to the code.** It was written by reading /repo; every definition cites the lines it models.
   Nothing was executed. What was simplified is listed in section 3.
4. **Runtime primitives.** The Python/NumPy/C runtime is modelled by small definitions in `Py.lean`, `Arr2.lean`, `CMem.lean`,
   `File.lean`, `FloatText.lean`: indexing and slicing rules, broadcasting, `np.zeros`, `np.concatenate`, `for`/`xrange`,
   exceptions, `int()`/`float()`/`format`, C arrays with bounds-checked access. `np.fft.fft2/ifft2/fft/ifft` are *defined* as the DFT
   sums (kiss_fft, by contrast, is modelled from its source and proved to be the DFT, C47). `np.random.normal` is an
   arbitrary stream of numbers.
5. **The English → Lean reading** of `properties.jsonl`: each statement uses only the model's API functions
   (`spht`, `ispht`, `readMap c n m` = "`c[n,m]` if it does not raise", ...), the state a user can see, and the separate
   specification vocabulary of `Spec.lean`, `SpecSH.lean`, `SpecHeap.lean`.

## 2. Layout

Model (each definition cites its source lines):

| file (lean/Verif/) | models |
|---|---|
| `Py.lean`, `Arr2.lean`, `CMem.lean` | Python/NumPy/C runtime primitives; exceptions are values `Except PyErr a` carrying class and `err_msg` key |
| `Coefs.lean`, `CoefsFn.lean` | `pysphi.mindx`; `ScalarCoefs`, `VectorCoefs`: constructors, all forms of `[]` read/write, `window`, arithmetic (left/right, sets/numbers/foreign objects), power, 2-D representation, `copy`, `size`; `zeros_coefs`, `ones_coefs`; `abs`, `mag`, `mag2`, `L2_coef`, `LInf_coef`, `compare_relative`, `pretty_coefs` |
| `CoefsText.lean` | `__str__`, `__repr__`, `_tiny_rep`, `random_coefs`, the dispatch of `array`/`abs`/`mag`/`mag2`, the non-uniform stubs |
| `Pattern.lean` | `double_sphere`, `continue_sphere`, `ScalarPatternUniform`, `TransversePatternUniform` with arithmetic, symmetry checks and factories; `L2_patt`, `LInf_patt` |
| `Ops.lean` | all of `ops.py` |
| `Sphi.lean` | all of `pysphi.py` |
| `CSphi.lean` | all of `src/csphi.c`, with uninitialised `malloc` memory and every array access checked |
| `Kiss.lean` | `src/kiss_fft.c`: `kf_factor`, `kf_work`, the butterflies (2, 3, 4, 5, generic), `kiss_fft_alloc`, `kiss_fft` |
| `Transforms.lean` | `spht`, `ispht`, `vspht`, `vispht`, `spht_slow`, `ispht_slow`, `sph_harmonic_tp`, for both backends |
| `Bessel.lean`, `BesselTest.lean` | all of `sbessel.py` |
| `File.lean`, `FloatText.lean` | all of `file.py`; `'{:.16e}'` formatting and `float()` parsing of doubles |
| `Verify.lean`, `Plot.lean`, `Config.lean` | `verify.py`; the data `plot_sphere.py` hands to matplotlib; `pkg_info.json`, the `use_cext` switch and the import logic |
| `Heap.lean` | second, reference-level model: which arrays each operation allocates, shares and overwrites; proved to refine the value-level model |
| `Alias.lean` | columns `c[:,m]` as live views of the set's array, and the methods of the set when such a view is passed back to it |
| `PatternView.lean` | in-place edits of a pattern through `cdata`/`array`/`theta`/`phi` |
| `Typed.lean` | element type and layout of a set's array through every operation; the argument checks of `src/csphi_wrap.c` / `csphi.i` |
| `FloatSum.lean` | `np.sum(np.abs(v)**2)` in doubles: any order of summation, `hypot` within one ulp; `power`, `angular_power_spectrum`, `L2_coef` |
| `FloatYnm.lean` | `ynnm`, `ynunm` of pysphi.py and csphi.c in doubles |
| `FloatSynth.lean` | `fcvec_m_sc`, `sc_to_fc` of pysphi.py and csphi.c, `ispht`, `vispht` in doubles (`np.fft.ifft2`, `L_fc` a parameter: the same code in both backends) |
| `FloatAnal.lean` | `sin_fc`, `bnm_vec_fc`, `fc_to_sc` of pysphi.py, `bnm_fc`, `fc_to_sc` of csphi.c, `spht` in doubles (`np.fft.fft2`, the fast convolution and the order of `np.sum` are the parameters of `NumLib`) |
| `FloatSlow.lean` | `spht_slow`, `ispht_slow` in doubles |
| `FloatTp.lean` | `sph_harmonic_tp` and `np.linspace` in doubles (`np.exp` and the order of `np.sum` are parameters) |
| `CInt.lean` | csphi.c with every `int` expression checked against the 32-bit range (`cks`) |
| `Math/Rotation.lean` | how the harmonics of one degree change under an orthogonal matrix |
| `Math/RotationV.lean` | directional derivatives of the harmonics, vector products under an orthogonal matrix |
| `Math/TableStab*.lean` | stability of the three-term recursion of `ynunm` under perturbations |
| `FloatVec.lean` | `divsin_fc`, `dtheta_fc`, `dphi_fc`, `sinLdot_fc`, `L_fc`, the last part of `vispht`, and `vspht`, in doubles |
| `FloatKiss.lean` | kiss_fft, `SData`, `hkm_fc`, `bnm_fc`, `fc_to_sc` of the C extension in doubles, with work arrays and library `cos`, `sin` as parameters |
| `FloatBessel.lean` | `sbessely`, `sbesselj`, `sbesselh1`, `sbesselh2` in doubles, library `cos`, `sin`, `x**2` as parameters |
| `FloatPyConv.lean` | the convolution of pysphi.py (`s_data`, `hkm_fc`) in doubles, NumPy's 1-D FFTs as parameters |
| `FloatPow.lean` | CPython's `1j ** m`: `c_powi` up to 100, polar coordinates beyond, libm as a parameter |
| `FloatFft2.lean` | `np.fft.fft2` and `ifft2` in doubles from one-dimensional FFTs, with the normalisation of `spht`/`ispht` |
| `Wrap.lean` | `src/csphi_wrap.c` `_wrap_fc_to_sc`, `_wrap_sc_to_fc` argument by argument; the transforms with typed limits |
| `Wrap2.lean` | the wrappers of `ynnm`, `ynunm`, `FindQ`, `SData` in csphi_wrap.c (those of `hkm_fc`, `bnm_fc`, `fcvec_m_sc` take raw pointers and are not modelled) |
| `FloatNorm.lean` | `L2_*`, `LInf_*`, `compare_relative` on doubles, any order of summation |
| `Math/Product.lean` | products of harmonics, and of the parts of vector harmonics, as combinations of harmonics |
| `Math/Addition2.lean` | the addition theorem for two points |
| `FileX.lean` | the file functions on all binary64 values (infinities, NaN, signed zeros) |
| `BesselX.lean` | sbessely, sbesselh1, sbesselh2 in IEEE arithmetic with infinities and NaN |
| `NanX.lean` | `double_sphere`, `spht`, `ispht` (Python routines), norms, `single_val` in IEEE arithmetic with NaN and infinities; the FFTs are parameters |
| `NanC.lean` | kiss_fft and the routines of csphi.c behind `spht` and `ispht` in IEEE arithmetic with NaN and infinities |
| `NanV.lean` | the operators of ops.py, `window`, `vspht` and `vispht` in the same arithmetic, for both sets of routines |
| `Threads.lean` | the calls of `Heap.lean` as trees of single array accesses, and threads that take turns; `ThreadRun.lean`, `ThreadPar.lean`, `ThreadSim.lean`: uninterrupted run = `SpecHeap`, address independence, simulation (C122) |
| `FloatArith.lean` | rounded `complex128` arithmetic as used by `double_sphere` |

Specification: `Spec.lean` (modes, well-formedness, operators), `SpecSH.lean` + `Math/Legendre.lean` (spherical harmonics from Rodrigues' formula),
`SpecHeap.lean` (programs over objects and their sharing-free reference semantics), `BesselMath.lean` (spherical Bessel functions).

Proof support: `CoefsLemmas*`, `Sphi?.lean`, `CSphi?.lean`, `Kiss*.lean`, `Trans?.lean`, `Vec*.lean`, `Heap*.lean`, `Bessel*.lean`, `FileLemmas.lean`, `Fourier.lean`, `Math/*`.

Property theorems: `Props/*.lean`, namespace `Verif.Props`, each with concrete cases meeting the hypotheses.

## 3. What is and what is not modelled

Modelled: every function of `spherepy/*.py` except those below, `src/csphi.c`, `src/kiss_fft.c`.

Not modelled:
* `spherepy/csphi.py`, `src/csphi_wrap.c` (generated by SWIG): the two wrappers the package calls are modelled argument by argument in `Wrap.lean` (C108, Python 3) and
  `Typed.lean` (C82); elsewhere the wrapper is assumed to pass a pointer to the array's buffer and its dimensions (`CSphi.Arr2.flat`). `Wrap2.lean` has four more wrappers (C130); the rest take raw pointers and are not modelled.
* matplotlib itself (the arrays handed to it are modelled), `setup.py`, the tests, examples and documentation.
* Operating-system effects of files: a file is its text; concurrent writers are covered only as "the text that is read" (C44 speaks about every text);
  an interrupted write leaves a prefix of the text (C121).
* Python features the code does not use on these paths: subclassing, monkey-patching, NumPy dtypes other than complex128/float64,
  NumPy integer index objects (`isinstance(arg, int)` is false for them: they fall into the "anything else" case).

Numbers:
* Code that only moves or compares data is modelled for an arbitrary element type: those theorems hold bit for bit for doubles.
* Element-wise arithmetic is modelled for an arbitrary type with the four operations (no laws assumed wherever possible: C09, C11, C59, C60).
* Transforms, Bessel functions, norms and FFTs are modelled in **exact arithmetic** over ℝ and ℂ. Rounding, overflow, NaN and infinities are
  not modelled there. Exceptions: C65, C84-C88, C92-C107, C109-C111, C124, C127, C129, C135, C136, C138 and part of C139 are about rounded double arithmetic; C42/C43 about decimal conversion of doubles; C119 about files of arbitrary binary64 values, in IEEE arithmetic with infinities, NaN and signed zeros (`FileX.lean`), C120 about sbessely and the Hankel functions, and C131-C134 about NaN and infinities in the transforms (assuming of NumPy's FFTs that one NaN in the input makes every output NaN), in the same arithmetic (`BesselX.lean`, `NanX.lean`, `NanC.lean`, `NanV.lean`).
* C `int` is unbounded in `CSphi.lean`; `CInt.lean` repeats csphi.c with 32-bit range checks, and C89 shows when the two agree.

Loops are folds over the same ranges in the same order when the order matters (in-place updates) or comprehensions when the iterations are
independent; `while` loops are step functions iterated with an explicit possibility of non-termination (C25, C46).

## 4. Properties and how they are proved

* **C01-C09, C13, C14, C58-C61 (coefficient sets).** The `mindx` loop is solved in closed form; storage slots are a bijection with modes; reading/writing
  refines the map `(n,m) ↦ value`; histories by induction over the list of operations.
* **C15, C16, C54 (invariants and sharing).** Invariant over all programs; C16/C54 on the heap model: every program in which objects are created by
  factories, copies, arithmetic, truncation, transforms, and changed in place behaves as if every variable held its own value (refinement, induction over the program).
* **C17, C18, C55-C57 (norms).** Direct; triangle inequality from Mathlib's ℓ² norm.
* **C19, C62-C64, C67, C68 (printing, plotting, random sets).** Cell by cell; injectivity of the text by splitting at separators.
* **C20-C24 (patterns).** Pointwise over a field; C65 the same code over rounded arithmetic with round-to-nearest as the only assumption.
* **C25 (FFT lengths).** Loop invariant + minimality; termination because a power of two is always ahead.
* **C26 (harmonics).** Rodrigues ⇒ differential equation ⇒ the three-term recurrence that `ynunm` runs, on Laurent polynomials in e^{iθ}.
* **C27 (convolution).** DFT convolution theorem + collision analysis of the index ranges.
* **C28, C29 (C backend).** The C model runs without undefined behaviour and returns the arrays of the Python model.
* **C75-C78 (conditioning).** C77/C78 are the same with vector harmonics (`Math/VecHarm.lean`, `StabMathV.lean`). C75: Bessel's inequality (`Math/Bessel.lean`) in the form `⟨f,g⟩ = ∫₀^π f ḡ sinθ` and for the DFT, together with Parseval for the
  θ-interpolant; C76: the addition theorem `Σ_m |Y_nm|² = (2n+1)/4π` (`Math/Addition.lean`, from the ladder identities) and Cauchy-Schwarz.
* **C30-C39, C50, C51, C69-C74 (transforms).** Closed form of each stage (`TransF`, `TransI`, `TransS`, `VecTrans`), orthonormality of the θ-parts by integration,
  DFT inversion. Projection statements use Mathlib integrals over the sphere; the symmetry properties follow from the closed form of `spht`/`vspht`.
* **C40 (sph_harmonic_tp), C41 (operators).** Coefficient identities.
* **C42-C44, C52 (files).** Text-level model; decimal round trip of doubles proved from the spacing of doubles (17 digits).
* **C45, C46, C66 (Bessel).** Recurrences by induction; accuracy and termination of the downward recurrence by a continued-fraction bound;
  `Σ(2n+1)j_n² = 1` with remainder.
* **C47, C48 (kiss_fft).** Induction over the factor list; buffer bound from the size of `int`.
* **C81 (in-place edits).** Cell analysis of the stored double sphere after overwriting the rows of the view, compared with `continue_spec`.
* **C79, C80 (views).** A view is the list of buffer positions it shows; invariant "well-formed with the same limits" through any history; loop invariants over the
  element-wise reads for the aliased row assignment and window.
* **C82 (element types).** Induction over the expression that builds a set; NumPy type promotion as a table.
* **C83 (spectrum).** C24/C72-style symmetries change each coefficient by a unit factor or swap m and -m; the row sums of squared magnitudes are reindexed.
* **C84 (exact identities in doubles).** From monotonicity, nearest-ness and symmetry of the rounding; operations defined by rounding each real operation.
* **C85 (accuracy).** Induction over the summation tree; `(1+u)^K` bounds.
* **C86 (accuracy of the tables).** Relative-error bookkeeping through the two loops (`Near`); the failure by an invariant (`run >= 2^-1074`) and a two-phase lower bound of the second loop; the loss of precision from degree 1001 on by carrying an absolute error in units of 2^-1074 through both loops (`lost`, `loose_fold`).
* **C87 (bitwise agreement).** Every integer sub-expression is exact below 2^53; the roundings that remain are applied to the same reals.
* **C88 (bitwise agreement of the inverse transforms).** Both implementations of `sc_to_fc` are shown to fill the array with the same rounded fold over degrees (`entryF`), using C87 for the tables; multiplying by a unit or by a real number converted to complex adds no rounding.
* **C89 (32-bit overflow).** The checked routines are shown equal to those of `CSphi.lean` when rows*cols ≤ 2^31 (`Props/CInt*.lean`); conversely a checked run that returns must have passed the check on the last flat index, and a checked run that differs from the unchecked one raises undefined behaviour (`Sim`).
* **C90 (rotations).** Rotation about the y-axis is a linear differential equation in the angle with the skew-symmetric ladder matrix, so it acts by its exponential, a unitary matrix; Euler angles reduce every orthogonal matrix to rotations about y and z and one reflection. The rotated function is again a finite series, which `spht` recovers exactly (C32).
* **C91 (rotations of vector fields).** In Cartesian terms the field is −i x×∇V − ∇W with scalar potentials V, W. Differentiating C90's identity along great circles shows that derivatives turn with the same unitary matrices; the vector product picks up det Q.
* **C92 (whole tables in doubles).** The recursion is written as two first-order relations; while the entries grow (k above the turning point) relative errors accumulate linearly, and in the oscillating part a discrete energy (Sonin's function) is almost conserved, so errors stay bounded by the energy of the exact solution. The exact entries are bounded by the addition theorem; underflow is absorbed because the starting value is at least 2^-1002. Overflow is excluded by first running the recursion with rounding switched off for huge arguments and then showing that no argument is huge.
* **C93 (ispht in doubles).** Each entry of the intermediate array is a sum over degrees of products of the coefficient and two table entries; C92 bounds the table errors, `acc_sum` the accumulation, and `fAt_err`/`sum_err` carry the entrywise error through the exact inverse transform.
* **C94 (spht in doubles).** `sin_err` bounds the entries of the sine-multiplied Fourier array, `hval_diff` carries the error through the exact convolution, C92 bounds the table of the last sum, `py_comp`/`c_comp` its accumulation in the order of each backend, `tgt_bval` compares with the exact sum.  `goodLib` shows the library hypotheses can be met.
* **C95 (round trip in doubles).** `ispht_samples` (C93 before the pattern is halved) gives the samples and their size; `c75_any` carries their error through exact `spht`; C94 bounds the error of `spht` in doubles on those samples; C32 identifies the exact result.
* **C96 (vector synthesis in doubles).** `divsin_err` is an induction down the rows: each of the 2N+1 nonzero rows adds one rounding error, the zero rows add none because adding zero is exact; `lFc_err` combines it with the two derivatives (multiplication by `±i` is exact, by an integer costs one rounding). `weight_err` bounds the degree weights (`n(n+1)` is exact, then one square root and one division), `lcomp_err` puts C93's entry bound and the weights together, and `vispht_full` sums over the frequencies. C50 identifies the exact values as the field.
* **C97 (vector analysis in doubles).** `ext_err` follows the Fourier array of one component, `sinLdot_err` the derivatives (each entry of order m costs a factor |m| or |nu| and a few roundings), `sldot_l2` bounds the exact arrays in the root of the sum of squares (Parseval, `fhat_l2`), so that the convolution of C94 applies with the scale W C; `analyse` is the tail of C94 for such an array, `vfinal` adds the degree weights. C97 is stated against the exact `vspht` (C49, C71).
* **C98 (vector round trip in doubles).** C96 bounds the error of the samples, the field bound of C78 with the mirror symmetry of C37 their size, `c77_any` (a perturbation bound for `vspht` that needs no symmetry of the samples, from `sldot_l2` and `kern_l2`) carries the error through the exact analysis, C97 adds the roundings of `vspht`, and `vround` is the exact round trip.
* **C99 (kiss_fft in doubles).** `FloatKiss.lean` repeats `Kiss.lean` with every operation rounded. `Ap` tracks `(value, size, error)` through the five butterflies (FloatKiss1-4), `work_err` adds the errors over the recursion (an inner error is amplified by the radix, as is the size), `kissTw_err` bounds the twiddles by 32 units (literal of pi, two products, a quotient, `cos`/`sin`), and `kfNext_prime` shows that `kf_factor` only chooses 4 and primes, so that the sum of the stage costs is a sum over prime factors.
* **C100, C101 (analysis in doubles with the extension).** C94/C97 take the accuracy of the fast convolution as a hypothesis. FloatKissL1 bounds the error of kiss_fft by the *sum* of the moduli (`c99_sum`), which applied to the kernel table (sum `3(1+log Q)`, its entries computed by `SData` with error `KE`) and to the sample column (Cauchy-Schwarz from its energy) gives the error of `hkm_fc` (FloatKiss9-11); `conv_col` states it as the hypothesis C94/C97 want; `ext_eq` shows that `fc_to_sc` with its own work arrays computes what the parametrised model computes with this convolution, and `ext_fresh` that the junk does not matter.
* **C102 (`sbesselj` in doubles).** The `while` loop: a continued-fraction iteration whose terms decrease, with the invariant `LoopInv` for the rounded values (FloatBes1-3). The downward ratios are contracting above the turning point (phase A, FloatBes5); below it the ratios are turned into a sequence P satisfying the perturbed recurrence and compared with j_n by the energy form a^2+b^2-Bab (BesselEnergy, FloatBes6-7). The forward products and the choice of the starting value by the size of j_0, j_1 (which are never both small) give the values (FloatBes8-10). A zero divisor at row k gives a sequence with P_{k-1} = 0, so j_{k-1} is small (FloatBes11). The zero-divisor example follows 131 roundings (FloatBes12, generated by tools/gen_bes_zero.py).
* **C103 (`sbessely` in doubles).** The closed form x^2 (j_n^2 + y_n^2) = sum_k C_k (n+k)!/(n-k)! x^(-2k), by induction together with the mixed product (BesselModulus), shows that the modulus grows with the order for every x. The error divided by the Hankel function, d_n, satisfies |d_{n+1}-d_n| <= |d_n-d_{n-1}| + 8 * 2^-53 (FloatBesY1-2).
* **C104 (analysis in doubles, Python routines).** `Fl.pyConv` is pysphi.py 121-176 in doubles, with NumPy's one-dimensional FFTs as a parameter. CPython's complex division gives the kernel entries with one rounding; the kernel has l1 norm at most 3(1+log Q); an FFT accurate to kappa relative to the l1 norm of its input then gives a convolution accurate to 40 * 3(1+log Q) kappa times the l1 norm of the column (FloatPy1-2), which Cauchy-Schwarz and Bessel's inequality bound by sqrt(r+1) C (FloatPy3). This replaces the convolution hypothesis of C94-C98; what is left of NumPy is the accuracy of `fft`, `ifft` (`Fft1Within`) and `fft2` (`Fft2Within`), and that `np.sum` adds in some order. FloatPy4 shows that FFTs which round the exact transform meet the hypotheses.
* **C105 (powers of 1j).** `Fl.pow1j` is CPython's algorithm. The binary powering loop has the invariant r = i^(n mod mask), p = i^mask, all products of units being exact; the polar branch is bounded through |cos a - cos b| <= |a-b|. The accuracy theorems for the Python routines (C93-C98, C104) need only `PowNear`, the bound proved here: the slack between the exact and the stated table error absorbs it (FloatSynth2, FloatAnal).
* **C106 (from the user's array).** `fft2_within` composes two passes of one-dimensional FFTs and the division by rows*cols; `FU.continue_err` compares `continue_sphere` in doubles with the exact one cell by cell (the phase test at the poles takes the same branch because products of pole samples neither vanish nor underflow). C104/C100/C101 then give the analysis of the doubled array and C75/C77 the effect of the cell errors.
* **C107 (synthesis and round trip).** The array handed to `np.fft.ifft2` vanishes off a frame of (2N+1)(2M+1) cells (`FU.synth_sum`), so the sum of the moduli, to which the FFT errors are relative, does not grow with the grid.
* **C108 (wrapper).** Case analysis of the argument objects; with Python ints the wrapper reduces to the call of `CInt.lean`, so C89 applies; inversion of the wrapper's checks for the exact criterion.
* **C109 (environments).** Both runs are compared with the exact transform (C106, C107); the exact vector field is unique (`FU.jackson_unique`); triangle inequality.
* **C110 (absent modes).** Synthesis: the table `ynunm` does not depend on the length asked for, sums of doubles absorb products with zero, and columns of absent orders stay zero.  Analysis: `pysphi.fc_to_sc` appends, so fewer orders give a prefix; the C loop is simulated on a longer array and later orders write behind the prefix.
* **C111 (norms in doubles).** Relative error factors (1 ± u)^k are carried through hypot, squares, any bracketing of the sum, square root and quotient; a difference of two doubles is exact below the normal range, so it is 0 only for equal doubles, which makes LInf (no squares) an equality test and L2 not.
* **C112-C116 (what users build from the transforms).** C112 differentiates the series term by term (`hasDerivAt_thetaR`, the associated Legendre equation `hasDerivAt_sin_tPart`), compares with the closed form of a tangential expansion, and continues to the poles by density. C113/C114 write products of the θ-parts as sin^|l| θ times a polynomial in cos θ of bounded degree, and expand polynomials in derivatives of Legendre polynomials by descending degree; for |E|² the two combinations t t' + h h' and h t' + t h' are treated together. C115 uses the rotation matrices of C90, C116 combines C30, C32, C33 and C50.
* **C117, C118.** C117: uniqueness of expansions (orthonormality) and C112's series for divergence and curl. C118: the addition theorem (rotate one point to the pole with the unitary matrices of C90) and orthonormality (Funk-Hecke).
* **C119.** `float("{:.16e}".format(x))` returns every binary64 value (value lemma of C42 plus the overflow threshold of `float`), then `re + 1j * im` is evaluated by cases in IEEE arithmetic and the line loops are followed as for C42, C43. CPython's evaluation up to 3.13 is the one modelled.
* **C120.** `IEEERound` is rounding to nearest with unbounded exponent (results of `2^1024` or more become infinities), shown inhabited by `ieeeRound_exists`. Induction along the recurrence: finite values agree with the model of C103; the coefficient `(2n-1)/x` is finite and nonzero, so after the first infinity the next step is `c * inf - finite` and then `c * inf - inf` with equal signs, which is NaN. The overflow itself follows from `|y_{n+1}| >= 3/2 |y_n|` in rounded arithmetic for `|x| <= 1`. NumPy's complex product formula is the naive one.
* **C121.** The text is a list of lines; a prefix of it is some complete lines and a cut one (`CR.take_lines`). Cut fields either miss a comma (error) or leave the last field short; the line loops of C42-C44 do the rest. For the counterexample the first printed digit of a number `>= 10` is shown to be read as that digit.
* **C122.** Every call is a tree whose inner nodes are single accesses (allocate, read, write one array); `Pool.exec` runs the threads by any schedule. A relation between trees that allocate at different addresses (`Par`) is shown for each call; the invariant embeds each thread's solo heap in the shared one. The solo run is C16's heap run, which equals the run on plain values.
* **C123.** An invariant (`Good`: well-formed, bounded size, even number of doubled rows) is kept by every statement of a plain program; under it C28 makes each transform independent of the backend, and induction over the program does the rest. With C122 it extends to threads.
* **C124.** Induction over the list of round trips, generalising the current set and the drift so far; each step is C107 for coefficients of twice the initial size.
* **C125.** Induction over the data lines of a block and over the blocks, with the array and the row counter as invariant.
* **C126.** Loop invariant over the data lines: every position holds the value of the last line so far that addresses it.
* **C127.** The relation 'y is x with every complex value turned by 1j' is carried through every function of both backends and the FFTs of Kiss; the algebra is exact because rnd(-x) = -rnd x; the contents of memory drop out by C100/C101. Other units are iterates.
* **C128.** The loops of fc_to_sc and sc_to_fc are followed without the guards: reading column m mod ncols gives the shifted interpolant, writing only ncols/2 pairs of columns gives the truncated series.
* **C129.** np.linspace, the phases and np.exp are bounded absolutely, the table by C92, the sum by the any-order bound of C94, `1j ** m` by C105; the two last products by the rounded product lemma.
* **C130.** Argument conversion case by case; the C loops are those of C28/C89, the kernel table is computed entry by entry by a loop invariant for both programs.
* **C131.** IEEE addition and multiplication propagate NaN; loop invariants carry the marked entry through the padding, the sine product, the convolution and the accumulation loops.
* **C132.** The butterflies send a NaN in a group to the whole group; induction over the factor list carries it to all outputs. The convolution and accumulation loops as in C131, with the C index arithmetic.
* **C133.** Row 0 and row 1 of a marked column survive the derivatives (a product with the frequency 0 is still NaN) and the recursion of `divsin_fc`; then C131 and C132 lemmas for `fc_to_sc` and `sc_to_fc`.
* **C134.** The proofs of C131-C133 are stated for any property of IEEE values that passes from an operand of a sum or product, and from a numerator, to the result (`Sticky`); NaN is one instance, non-finite the other.
* **C135.** The rounding of the sum of squares as in C85, here with underflow (`FloatPower2`), with C39/C13 (Parseval for the exact sums); a perturbation lemma (Cauchy-Schwarz) for sets that are only close to the true coefficients, composed with C106.
* **C136.** C107 composed with the perturbation bound of C135, applied to the sets before and after.
* **C137.** Orthonormality of the vector harmonics over the sphere (the inner products in theta of C77) expands the energy into the sum of squared coefficients; synthesis and analysis by C50 and C33.
* **C138.** C135/C136 applied to the two sets, C107 for the round trip, the energy by C137; the monopole is multiplied by the window entry 0.
* **C139.** The sum of C13 over the orders of a degree is the sum over all modes of the coefficients cut to that degree; its energy is C137's. In doubles by C135.
* **C140.** The gradient of a band-limited function has vector coefficients (0, -sqrt(n(n+1)) v) (C112); its energy by C137; window and spectrum by C08 and C13.
* **C141.** Samples resolve the function, so spht with the full limits returns its coefficients; C38 gives the truncation; orthonormality splits the distance into the lost modes and the modes kept.
* **C142.** As C141 with the vector harmonics: the difference of two Jackson fields is a Jackson field, its energy by C137, the truncation by C38.
* **C143.** The double sphere of a function on the sphere holds only its samples (the pole rows are constant); C75 bounds the change of the coefficients, C76 that of the synthesised samples.
* **C144.** The components of a field change sign across a pole, so the double sphere holds only samples and their negatives; then C77 and C78 as in C143.
* **C145.** C07 gives the modes of the truncated set, C13 its spectrum, C39 and the splitting of C141 the distance.
* **C49 (configuration), C53 (verify).** Decision logic; norms vanish exactly on agreement.

All properties can be expressed in the model.

## 5. Where the code does not have the property (partial claims)

For each of these the manifest names a `_counterexample` theorem (a concrete input on which the code violates the property), a `_partial` theorem (the largest
part that holds) and, where useful, an `_actual`/`_iff` theorem giving the exact behaviour.

| id | finding |
|---|---|
| C04 | `ScalarCoefs(vec, nmax, mmax)` accepts some negative limits |
| C06 | `c[n,:] = v` demands 2n+1 values even when n > mmax |
| C10 | combining scalar sets compares vector lengths only: (3,0)+(1,1) is accepted |
| C11 | the vector length check compares an operand with itself; (0,0) sets broadcast |
| C12 | division by the number 0 *returns* a ZeroDivisionError object instead of raising it |
| C17 | `L2_coef` of a vector set uses the first component twice |
| C18 | `mag2` of a scalar set returns the magnitude, not its square |
| C22 | the transverse symmetry checks look at the theta component twice |
| C23 | the product of two transverse patterns, or adding a constant, is not antisymmetric |
| C24 | `ones_patt_uniform(..., vector)` is not antisymmetric |
| C29 | `spht(p,-1,-1)` and `ispht` with nmax=0, nrows=1 pass the checks and make the C code read or write outside its buffers |
| C35 | the default nmax is nrows-2, documented nrows-1; omitting nmax overrides a given mmax; mmax < 0 ≤ nmax fails inside NumPy |
| C36 | `ispht` accepts nrows = nmax+1 and returns a wrong pattern |
| C40 | `sph_harmonic_tp` uses a 50-point phi grid whatever ncols is |
| C44 | a coefficient file cut short loads silently, the rest being zeros |
| C45, C46 | N = 1 raises IndexError; x = 0 raises ZeroDivisionError; exact zeros of j_{N-1}, j_{N-2} make the loop run forever in exact arithmetic |
| C49 | `use_cext` is a string: every non-empty string, including "False", selects the C extension |
| C53 | the L2 entry of `verify_vspht` does not see the second component |
| C80 | `c.window(c[:,0])` multiplies the other columns by the square of column 0, and `c[n,:] = c[:,m]` with n > mmax may read values it has already overwritten, because `c[:,m]` is a live view |
| C81 | an in-place edit of `p.cdata` (`p.theta`, `p.phi`) changes only the shown half of the double sphere, so the pattern loses its symmetry unless nothing off the poles changed |
| C82 | the C extension refuses real coefficient sets, such as `abs(c)`, `mag(c)`, `mag2(c)`, and strided arrays with TypeError, where the Python routines transform them |
| C86 | from degree 1079 on `ynnm` is wrong by a factor of at least 2^(n-1078): its first loop multiplies numbers near 1/2 and sticks at 2^-1074 instead of reaching 2^-n, the second loop then multiplies that up; every transform with n >= 1079 silently uses these values |
| C102 | sbesselj(5.76345919689455, N) for 7 <= N <= 12 divides by zero (out[4] equals the double 7/x) and the result contains NaN; sbesselj(x, N) for x around 1e-18 can return an arbitrary j_1, e.g. 128 at x = 2^-60+2^-87, because sin(x)/x**2 - cos(x)/x cancels and the branch then prefers the larger value; for x > N-1/2 a denominator of the loop can almost vanish: sbesselj(3.8729833462074175, 2)[1] = 0.1244 instead of 0.1476 (x next to sqrt(15), where 1 - x^2/15 is rounded away) |
| C108 | `SWIG_AsVal_long` (csphi_wrap.c 3062-3079) accepts only Python `int`s: with Python 3, `spht(p, np.int64(5), np.int64(5))` works with the Python routines and raises TypeError with the C extension, and so does `ispht` of a set whose limits are NumPy integers. An `int` outside 64 bits is replaced by -1 (the error of `PyLong_AsLong` is not looked at) and the C routine runs. |
| C119 | `re + 1j * im` (file.py 115, 204) loses data: a saved entry `1 + inf j` is loaded as `nan + inf j` (`1j * inf` is `nan + inf j`), an imaginary part `-0.0` is loaded as `+0.0`, and a real part `-0.0` as `+0.0` unless the imaginary part has its sign bit set; so `-0.0 - 0.0j` needs two save/load rounds to settle. `complex(re, im)` would be right. |
| C120 | once a value of `sbessely` overflows, two infinities are returned and NaN for every higher order (`inf - inf` in the recurrence), although `y_n` only grows; and `jn + 1j * yn` (sbessel.py 114, 122) turns the real part into NaN there (`0 * inf`), so `sbesselh1`/`sbesselh2` lose `j_n` too. |
| C121 | a file whose writing stopped anywhere is often loaded without an error: missing values are 0, a cut first line gives zeros with a smaller order limit (or fewer columns), and the value being written can be wrong: `1.5000000000000000e+01` cut after the first digit is read as `1.0`. The old contents are gone as soon as writing starts. |
| C122 | holds under the stated condition. If one thread assigns `vc[n, m] = (a, b)` while another copies `vc`, the copy can have the old first and the new second component. |
| C125 | `load_vcoef` never checks that it got all its lines: a truncated file loads silently with zeros, even when the whole second family is missing; several `break` lines make later blocks overwrite the second family. |
| C128 | spht_slow has no check on nmax and mmax, though its documentation promises ValueError: for ncols/2 <= mmax < ncols it returns aliased copies of other orders, for mmax >= ncols it raises IndexError; ispht_slow with even ncols <= 2 mmax silently drops orders (spherepy.py 1998-2018, 2171-2182). |
| C130 | `csphi.ynunm(n, m, y)` writes outside `y` when `len(y) <= n` (`pysphi.ynunm` raises IndexError); with `len(s) = rows + nmax` `SData` and `s_data` write entry `nmax` in a different order and may differ there; `csphi.FindQ(S)` with `S <= 0`, or an `int` beyond 64 bits, never returns |
| C131 | `single_val` (spherepy.py 1062-1069) updates its maximum with `sabs >= sv`, which is False for NaN: a pattern whose samples are all NaN has `single_val` 0.0 and `is_symmetric` True |

Further observations proved along the way: smallest_prime_factor and FindQ loop forever for arguments ≤ 0 (C25); the class constructors store the caller's array and the
VectorCoefs constructor zeroes entry 0 of the caller's arrays (C16); the theta-Nyquist row is dropped by spht (C31); `plot_coefs`
and `pcolor_coefs` fail on vector sets (C64); pole samples below about 2^-537 are doubled by `double_sphere` because `s*t == 0` underflows (C65); the text of a
vector set shows only its limits (C68).

* C96: the recursion of `divsin_fc` runs through every row of the array. Below frequency -N the exact values are 0, but what is left of the rounding errors of the rows above is copied into every second row down to the last one, so the noise (and the proved bound) grows with the number of rows asked for, not only with the degree.

## 6. Testing the theorems

`seeded/LOG.jsonl`: each entry is an edit of a model definition in a scratch copy in the manner of a realistic bug, the claim it breaks and the theorems that no longer
build. Edits that no theorem noticed led to stronger statements (field `tightened`) or were shown to be equivalent programs.
