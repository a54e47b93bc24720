import Verif.BesselX
import Verif.FloatPyConv
/-!
# Not-a-number through the transforms

`double_sphere`, `spht`, `ispht`, the norms and `single_val` of spherepy/spherepy.py with the Python routines of pysphi.py, in IEEE arithmetic with
infinities, NaN and signed zeros (`IE`, FileX.lean).  Finite tables that do not depend on the data (`ynunm`, `s_data`, π, the scale factors) are the rounded
values of FloatYnm.lean / FloatPyConv.lean converted with `IE.lit`, so the sign of a zero in them is not represented.  NumPy's FFTs are parameters (`FftX`), as is
CPython's `1j ** m`.  `np.sum` adds in any order.  The compiled extension is not modelled here.  NumPy's floating-point warnings have no effect on the values.
-/
namespace Verif
namespace NX

/-- A `complex128` value in IEEE arithmetic. -/
abbrev CX := IE × IE

/-- A finite complex value.  NumPy runtime; the tables of pysphi.py 75-147. -/
noncomputable def litC {rnd : ℝ → ℝ} (z : FC rnd) : CX := (IE.lit z.re, IE.lit z.im)

open Classical in
/-- `z == 0` for a complex number: both parts are a zero (a NaN is not).  NumPy runtime; spherepy.py 1062, 1066, 1777. -/
noncomputable def isZero (z : CX) : Prop := (∃ a, z.1 = .zero a) ∧ ∃ b, z.2 = .zero b

/-- `|x|`, NumPy runtime. -/
noncomputable def fabs : IE → IE
  | .nan => .nan
  | .inf _ => .inf false
  | .zero _ => .zero false
  | .fin x => .fin |x|

open Classical in
/-- `a >= b` on floats: false if one of them is NaN.  NumPy / Python runtime; spherepy.py 1064, 1068. -/
noncomputable def ge : IE → IE → Prop
  | .nan, _ => False
  | _, .nan => False
  | .inf false, _ => True
  | .inf true, b => b = .inf true
  | _, .inf t => t = true
  | .zero _, .zero _ => True
  | .zero _, .fin y => y ≤ 0
  | .fin x, .zero _ => 0 ≤ x
  | .fin x, .fin y => y ≤ x

section
variable (rnd : ℝ → ℝ)

open Classical in
/-- `z / w` on NumPy complex numbers (Smith's algorithm).  NumPy runtime; spherepy.py 1063, 1780. -/
noncomputable def cdiv (z w : CX) : CX :=
  if ge (fabs w.1) (fabs w.2) then
    let rat := IE.div rnd w.2 w.1
    let scl := IE.div rnd (.fin 1) (IE.add rnd w.1 (IE.mul rnd w.2 rat))
    (IE.mul rnd (IE.add rnd z.1 (IE.mul rnd z.2 rat)) scl, IE.mul rnd (IE.sub rnd z.2 (IE.mul rnd z.1 rat)) scl)
  else
    let rat := IE.div rnd w.1 w.2
    let scl := IE.div rnd (.fin 1) (IE.add rnd w.2 (IE.mul rnd w.1 rat))
    (IE.mul rnd (IE.add rnd (IE.mul rnd z.1 rat) z.2) scl, IE.mul rnd (IE.sub rnd (IE.mul rnd z.2 rat) z.1) scl)

/-- `z - w` on complex numbers.  NumPy runtime. -/
noncomputable def csub (z w : CX) : CX := (IE.sub rnd z.1 w.1, IE.sub rnd z.2 w.2)

/-! ### Patterns -/

open Classical in
/-- The cell computation of `double_sphere`, spherepy.py 1771-1780. -/
noncomputable def dsCell (s t : CX) : CX :=
  if isZero (IE.cmul rnd s t) then IE.cadd rnd s t else cdiv rnd (IE.cadd rnd s t) (.fin 2, .zero false)

/-- `double_sphere(cdata, sym)`, spherepy.py 1751-1782, as in Pattern.lean (`sym` is converted to a complex number). -/
noncomputable def doubleSphere (cdata : Arr2 CX) (sym : ℝ) : Arr2 CX :=
  Arr2.ofFn cdata.rows cdata.cols (fun n m =>
    dsCell rnd (IE.cmul rnd (.fin sym, .zero false) (cdata.at' ((cdata.rows - n) % cdata.rows) ((cdata.cols / 2 + m) % cdata.cols)))
      (cdata.at' n m))

/-- `ScalarPatternUniform(cdata)`: `continue_sphere(cdata, 1)`, spherepy.py 990-995, 1741-1748. -/
noncomputable def ofSamples (cdata : Arr2 CX) : Res (SPatt CX) :=
  (npFull2 ((cdata.rows : Int) - 2) cdata.cols (0 : CX)).bind fun zdata =>
  .ok ⟨.arr (doubleSphere rnd (vcat cdata zdata) 1)⟩

/-! ### Analysis -/

/-- NumPy's FFTs on `complex128` arrays. -/
structure FftX where
  /-- `np.fft.fft2(ds) / (dnrows * ncols)`, spherepy.py 1882 -/
  fft2 : Arr2 CX → Res (Arr2 CX)
  /-- `np.fft.ifft2(fdata) * dnrows * ncols`, spherepy.py 2077 -/
  ifft2 : Arr2 CX → Int → Int → Res (Arr2 CX)
  /-- `np.fft.fft`, pysphi.py 165-166 -/
  fft : List CX → Res (List CX)
  /-- `np.fft.ifft`, pysphi.py 167 -/
  ifft : List CX → Res (List CX)
  /-- CPython's `1j ** m`, pysphi.py 184, 187, 238 -/
  jp : Int → CX
  /-- `np.sum` of a complex array, pysphi.py 187 -/
  sum : List CX → CX

/-- `sin_fc`, ops.py 83-102: `1.0 / (2 * 1j)` is `-0.5j`. -/
noncomputable def sinFc (f : Arr2 CX) : Res (Arr2 CX) :=
  if f.rows < 3 then rowIndexError
  else
    let f := f.setRow ((f.rows - 2) / 2) fun _ => 0
    let f := f.setRow ((f.rows + 2) / 2) fun _ => 0
    .ok (Arr2.ofFn f.rows f.cols fun i j =>
      IE.cmul rnd (.zero false, .fin (-1 / 2))
        (csub rnd (f.at' (if i = 0 then f.rows - 1 else i - 1) j) (f.at' (if i = f.rows - 1 then 0 else i + 1) j)))

/-- `fdata[:, m]`, pysphi.py 152 (negative `m` counts from the end). -/
def colOf (A : Arr2 CX) (m : Int) : Res (List CX) :=
  if -(A.cols : Int) ≤ m ∧ m < A.cols then .ok (tab A.rows fun i => A.at' i (Arr2.wrap A.cols m))
  else .error ⟨.indexError, "index"⟩

/-- `s_data(nrows_fdata, Nmax, Q)`, pysphi.py 121-147: the finite values `-1j / nu`. -/
noncomputable def sData (L1 : Nat) (Nmax Q : Int) : Res (List CX) :=
  (Fl.sData rnd L1 Nmax Q).bind fun s => .ok (s.map litC)

/-- `hkm_fc(fdata, Nmax, m, s)`, pysphi.py 149-169 (as in FloatPyConv.lean). -/
noncomputable def hkmFc (np : FftX) (fdata : Arr2 CX) (Nmax m : Int) (s : List CX) : Res (List CX) :=
  (colOf fdata m).bind fun f =>
  let L1 := f.length
  let MM := L1 / 2
  let Q := s.length
  if L1 > Q then .error ⟨.indexError, "index"⟩
  else
    let ff := tab Q fun n => if n < MM then rd f (n + MM) else if n < L1 then rd f (n - MM) else 0
    (np.fft ff).bind fun F =>
    (np.fft s).bind fun S =>
    (bcast (IE.cmul rnd) F S).bind fun FS =>
    (np.ifft FS).bind fun out =>
    .ok (getSlice (out.map (fun x => IE.cmul rnd (IE.lit (Fl.pyFourPi rnd), .zero false) x)) 0 (Nmax + 1))

/-- The loop body of `bnm_vec_fc`, pysphi.py 180-189. -/
noncomputable def bnmBody (np : FftX) (h : List CX) (m : Int) (out : List CX) (n : Int) : Res (List CX) :=
  (Fl.ynunm rnd n m (n + 1)).bind fun ynm =>
  (getIdx h 0).bind fun h0 =>
  (getIdx ynm 0).bind fun y0 =>
  (setIdx out (n - |m|) (IE.cmul rnd (IE.cmul rnd (np.jp (-m)) h0) (IE.lit y0, .zero false))).bind fun out =>
  if n ≠ 0 then
    (bcast (fun (a : CX) (b : ℝ) => IE.cmul rnd a (IE.lit b, .zero false)) (getSlice h 1 (n + 1)) (getSlice ynm 1 (n + 1))).bind fun p =>
    (getIdx out (n - |m|)).bind fun o =>
    setIdx out (n - |m|) (IE.cadd rnd o (IE.cmul rnd (IE.cmul rnd (np.jp (-m)) (.fin 2, .zero false)) (np.sum p)))
  else .ok out

/-- `bnm_vec_fc(fdata, Nmax, m)`, pysphi.py 171-191. -/
noncomputable def bnmVecFc (np : FftX) (fdata : Arr2 CX) (Nmax m : Int) : Res (List CX) :=
  (orDiverge (smallestPrimeFactor (fdata.rows + Nmax))).bind fun Q =>
  (sData rnd fdata.rows Nmax Q).bind fun s =>
  (hkmFc rnd np fdata Nmax m s).bind fun h =>
  (npFull (Nmax - |m| + 1) (0 : CX)).bind fun out =>
  forM' (pyRange |m| (Nmax + 1)) out (bnmBody rnd np h m)

/-- `fc_to_sc(gcoef, Nmax, Mmax)`, pysphi.py 193-203. -/
noncomputable def fcToSc (np : FftX) (gcoef : Arr2 CX) (Nmax Mmax : Int) : Res (List CX) :=
  (bnmVecFc rnd np gcoef Nmax 0).bind fun c =>
  forM' (pyRange 1 (Mmax + 1)) c (fun c m =>
    (bnmVecFc rnd np gcoef Nmax (-m)).bind fun a =>
    (bnmVecFc rnd np gcoef Nmax m).bind fun b => .ok (c ++ a ++ b))

/-- `spht(ssphere, nmax, mmax)`, spherepy.py 1831-1900, with the Python routines. -/
noncomputable def spht (np : FftX) (p : SPatt CX) (nmax mmax : Option Int) : Res (ScalarCoefs CX) :=
  (sphtArgs p.nrows p.ncols nmax mmax).bind fun (n, m) =>
  (sphtGuards p.nrows p.ncols n m).bind fun _ =>
  p.dsphere.bind fun ds =>
  (np.fft2 ds).bind fun f =>
  (fixEvenRow f).bind fun f =>
  (padRows f (ds.rows + 2)).bind fun f =>
  (sinFc rnd f).bind fun f =>
  (fcToSc rnd np f n m).bind fun sc =>
  ScalarCoefs.init (.arr sc) n m

/-! ### Synthesis -/

/-- `F[0:K] += v`, NumPy runtime; pysphi.py 236. -/
noncomputable def addPrefix (F : List CX) (K : Int) (v : List CX) : Res (List CX) :=
  let k := clampIdx F.length K
  if v.length = k then .ok (tab F.length fun i => if i < k then IE.cadd rnd (rd F i) (rd v i) else rd F i)
  else if v.length = 1 then .ok (tab F.length fun i => if i < k then IE.cadd rnd (rd F i) (rd v 0) else rd F i)
  else .error ⟨.valueError, "broadcast"⟩

/-- The loop body of `fcvec_m_sc`, pysphi.py 232-236. -/
noncomputable def fcvecBody (vec : List CX) (m nmax : Int) (F : List CX) (n : Int) : Res (List CX) :=
  (Fl.ynunm rnd n m (nmax + 1)).bind fun ynm =>
  (getIdx vec (n - |m|)).bind fun v =>
  addPrefix rnd F (nmax + 1) (List.map (fun (y : ℝ) => IE.cmul rnd v (IE.lit y, .zero false)) ynm)

/-- `fcvec_m_sc(vec, m, nmax, nrows)`, pysphi.py 227-249 (as in FloatSynth.lean). -/
noncomputable def fcvecMSc (np : FftX) (vec : List CX) (m nmax nrows : Int) : Res (List CX) :=
  (npFull nrows (0 : CX)).bind fun F =>
  (forM' (pyRange |m| (nmax + 1)) F (fcvecBody rnd vec m nmax)).bind fun F =>
  let k := clampIdx F.length (nmax + 1)
  let F := tab F.length fun i => if i < k then IE.cmul rnd (rd F i) (np.jp m) else rd F i
  let mm : CX := (.fin ((-1) ^ m), .zero false)
  let r := F.length
  let H := if r % 2 = 0 then r / 2 - 1 else (r - 1) / 2
  .ok (tab r fun i => if r - H ≤ i then IE.cmul rnd mm (rd F (r - i)) else rd F i)

/-- The block repeated three times in `sc_to_fc` (pysphi.py 258-261, 263-266, 269-272). -/
noncomputable def scToFcCol (np : FftX) (spvec : List CX) (nmax mmax nrows : Int) (fdata : Arr2 CX) (kk : Int) : Res (Arr2 CX) :=
  (mindx kk nmax mmax).bind fun ind =>
  (fcvecMSc rnd np (getSlice spvec ind (ind + nmax - |kk| + 1)) kk nmax nrows).bind fun F =>
  setColumn fdata kk F

/-- The loop body of `sc_to_fc`, pysphi.py 256-272. -/
noncomputable def scToFcBody (np : FftX) (spvec : List CX) (nmax mmax nrows : Int) (fdata : Arr2 CX) (k : Int) : Res (Arr2 CX) :=
  (if k < mmax then
    (scToFcCol rnd np spvec nmax mmax nrows fdata k).bind fun fdata =>
    scToFcCol rnd np spvec nmax mmax nrows fdata (-(k + 1))
  else .ok fdata).bind fun fdata =>
  if k = mmax then scToFcCol rnd np spvec nmax mmax nrows fdata k else .ok fdata

/-- `sc_to_fc(spvec, nmax, mmax, nrows, ncols)`, pysphi.py 251-274. -/
noncomputable def scToFc (np : FftX) (spvec : List CX) (nmax mmax nrows ncols : Int) : Res (Arr2 CX) :=
  (npZeros2 nrows ncols).bind fun fdata =>
  forM' (pyRange 0 (halfTrunc ncols)) fdata (scToFcBody rnd np spvec nmax mmax nrows)

/-- `ispht(scoefs, nrows, ncols)`, spherepy.py 2020-2079, with the Python routines. -/
noncomputable def ispht (np : FftX) (c : ScalarCoefs CX) (nrows ncols : Option Int) : Res (SPatt CX) :=
  let nr := nrows.getD (c.nmax + 2)
  let nc := ncols.getD (2 * c.mmax + 2)
  (isphtGuards c.nmax c.mmax nr nc).bind fun _ =>
  let dn := 2 * nr - 2
  (scToFc rnd np c.vec c.nmax c.mmax dn nc).bind fun f =>
  (np.ifft2 f dn nc).bind fun ds =>
  .ok ⟨.arr ds⟩

/-! ### Norms and the symmetry measure -/

open Classical in
/-- `np.abs(z)`: C's `hypot`, which is infinite as soon as one part is, even if the other is NaN; `hyp` is its value for finite parts
    (a non-negative number or an overflow).  NumPy / C runtime; spherepy.py 1063, 2187, 2205. -/
noncomputable def cabs (hyp : CX → IE) (z : CX) : IE :=
  if (∃ s, z.1 = .inf s) ∨ ∃ s, z.2 = .inf s then .inf false
  else if z.1 = .nan ∨ z.2 = .nan then .nan
  else hyp z

/-- `s` is a result of `np.sum` of the non-empty list `l`, in some order and with some bracketing.  NumPy runtime; spherepy.py 2187, 2196. -/
inductive Sum : List IE → IE → Prop
  | one (x : IE) : Sum [x] x
  | add {l l' : List IE} {s s' : IE} : Sum l s → Sum l' s' → Sum (l ++ l') (IE.add rnd s s')
  | perm {l l' : List IE} {s : IE} : l.Perm l' → Sum l s → Sum l' s

/-- `np.sqrt` of a float (of a negative number: NaN).  NumPy runtime; spherepy.py 2187. -/
noncomputable def sqrt : IE → IE
  | .nan => .nan
  | .inf s => if s then .nan else .inf false
  | .zero s => .zero s
  | .fin x => if x < 0 then .nan else .fin (rnd (Real.sqrt x))

/-- `s` is a value of `np.sqrt(np.sum(np.abs(v) ** 2))`, spherepy.py 2187, 2196; `x ** 2` is one rounded product. -/
def L2 (hyp : CX → IE) (v : List CX) (s : IE) : Prop :=
  ∃ p, Sum rnd (v.map fun z => IE.mul rnd (cabs hyp z) (cabs hyp z)) p ∧ s = sqrt rnd p

open Classical in
/-- `np.maximum`: a NaN operand is the result.  NumPy runtime; spherepy.py 2205, 2214. -/
noncomputable def max2 (a b : IE) : IE := if a = .nan then .nan else if b = .nan then .nan else if ge a b then a else b

/-- `np.max(np.abs(v))`, spherepy.py 2205, 2214 (ValueError for an empty array). -/
noncomputable def linf (hyp : CX → IE) (v : List CX) : Res IE :=
  match v.map (cabs hyp) with
  | [] => .error ⟨.valueError, "zero-size array to reduction operation maximum which has no identity"⟩
  | x :: xs => .ok (xs.foldl max2 x)

open Classical in
/-- One update of the running maximum in `single_val`, spherepy.py 1062-1069. -/
noncomputable def svStep (hyp : CX → IE) (sv : IE) (s t : CX) : IE :=
  if ¬ isZero s then
    if ge (cabs hyp (cdiv rnd (csub rnd s t) s)) sv then cabs hyp (cdiv rnd (csub rnd s t) s) else sv
  else if ¬ isZero t then
    if ge (.fin 1) sv then .fin 1 else sv
  else sv

/-- `ScalarPatternUniform.single_val`, spherepy.py 1047-1071. -/
noncomputable def singleVal (hyp : CX → IE) (p : SPatt CX) : Res IE :=
  p.dsphere.bind fun A => .ok ((List.range A.rows).foldl (fun sv n =>
    (List.range A.cols).foldl (fun sv m =>
      svStep rnd hyp sv (A.at' ((A.rows - n) % A.rows) ((A.cols / 2 + m) % A.cols)) (A.at' n m)) sv) (.zero false))

open Classical in
/-- `ScalarPatternUniform.is_symmetric`: `single_val < 1e-14`, spherepy.py 1038-1045. -/
noncomputable def isSymmetric (hyp : CX → IE) (p : SPatt CX) : Res Bool :=
  (singleVal rnd hyp p).bind fun v => .ok (decide (v ≠ .nan ∧ ¬ ge v (.fin 1e-14)))

end
end NX
end Verif
