import Verif.Transforms
import Verif.CoefsFn
import Verif.CoefsText
import Verif.File
/-!
# Element types and the boundary to the C extension

A coefficient set holds whatever NumPy array it was given: a set made from a real array, or by `abs`, `mag`, `mag2`, holds
`float64` elements.  The other files model the values only; here every set carries the element type and the memory layout
of its array, and the generated wrapper `src/csphi_wrap.c` (from `src/csphi.i`) is modelled: it passes an array on to
C only if it has the right element type, dimension and layout.

Simplification: the element types are `int64`, `float64`, `complex128` (no single precision, no object arrays), all
in native byte order.
-/
namespace Verif

/-- Element type of a NumPy array (NumPy runtime; `dtype=np.complex128` in spherepy.py 1413 etc.). -/
inductive DType where
  | int64 | float64 | complex128
  deriving DecidableEq, Repr

/-- Element type of `a + b`, `a - b`, `a * b` (NumPy type promotion; used at spherepy.py 576-600). -/
def DType.promote : DType → DType → DType
  | .complex128, _ => .complex128
  | _, .complex128 => .complex128
  | .float64, _ => .float64
  | _, .float64 => .float64
  | .int64, .int64 => .int64

/-- Element type of `a op b`; true division of integers gives floats (NumPy runtime; spherepy.py 576-634, line 38
`from __future__ import division`). -/
def Op.dtype (op : Op) (a b : DType) : DType :=
  match op with
  | .div => (DType.promote a b).promote .float64
  | _ => a.promote b

/-- Element type of `np.abs(a)` (NumPy runtime; spherepy.py 1705, 1713, 1727). -/
def DType.abs : DType → DType
  | .int64 => .int64
  | _ => .float64

/-- A `ScalarCoefs` object together with the element type and contiguity of its array `_vec`, spherepy.py 194-207. -/
structure TCoefs where
  c : ScalarCoefs ℂ
  dt : DType
  contig : Bool

/-- The checks the SWIG wrapper makes on a 1-D array argument that C reads or writes in place, csphi_wrap.c 4187-4189
(`obj_to_array_no_conversion` 3234-3262, `require_contiguous` 3406-3417, `require_dimensions` 3439-3452): TypeError unless it
is a contiguous array of `complex128`.  (`require_native` holds for all arrays here.) -/
def swigArray1 (dt : DType) (contig : Bool) : Res Unit :=
  if dt ≠ .complex128 then .error ⟨.typeError, "Array of type 'complex double' required"⟩
  else if contig = false then .error ⟨.typeError, "Array must be contiguous"⟩
  else .ok ()

namespace TCoefs

/-- Sets made by the package itself: `zeros_coefs`, `ones_coefs`, `random_coefs`, `spht`, `load_coef`: a new array from
`np.zeros(.., dtype=np.complex128)` (spherepy.py 1413, 1460, 1893; file.py 196; pysphi.py 180), `normal + 1j * normal`
(spherepy.py 1506-1511). -/
def fresh (c : ScalarCoefs ℂ) : TCoefs := ⟨c, .complex128, true⟩

/-- `ScalarCoefs(vec, nmax, mmax)` with the caller's array, stored as it is: spherepy.py 194-207. -/
def ofArray (vec : List ℂ) (dt : DType) (contig : Bool) (nmax mmax : Int) : Res TCoefs :=
  (ScalarCoefs.init (.arr vec) nmax mmax).bind fun c => .ok ⟨c, dt, contig⟩

/-- `copy()`, spherepy.py 234-243: `np.copy` keeps the element type and gives a contiguous array. -/
def copy (t : TCoefs) : Res TCoefs := t.c.copy.bind fun c => .ok ⟨c, t.dt, true⟩

/-- `a op b` for two sets, spherepy.py 542-553, 576-626: a new array of the promoted element type. -/
noncomputable def op (o : Op) (a b : TCoefs) : Res TCoefs :=
  (a.c.opLeft o (.obj b.c)).bind fun c => .ok ⟨c, o.dtype a.dt b.dt, true⟩

/-- `a op x` for a number of Python type int, float or complex (`dx`), spherepy.py 554-559, 576-626. -/
noncomputable def opNum (o : Op) (a : TCoefs) (x : ℂ) (dx : DType) : Res TCoefs :=
  (a.c.opLeft o (.num x)).bind fun c => .ok ⟨c, o.dtype a.dt dx, true⟩

/-- `x op a`, spherepy.py 564-574, 580-634. -/
noncomputable def opNumR (o : Op) (x : ℂ) (dx : DType) (a : TCoefs) : Res TCoefs :=
  (a.c.opRight o (.num x)).bind fun c => .ok ⟨c, o.dtype dx a.dt, true⟩

/-- `abs(a)`, `mag(a)` and `mag2(a)` of a scalar set (the same array, see `mag2SC`), spherepy.py 1704-1705, 1712-1713, 1726-1727. -/
noncomputable def abs (a : TCoefs) : Res TCoefs :=
  (absSC a.c).bind fun d => .ok ⟨⟨d.vec.map fun x : ℝ => (x : ℂ), d.nmax, d.mmax⟩, a.dt.abs, true⟩

/-- `mag2(v)` of a vector set (complex data), spherepy.py 1716-1719. -/
noncomputable def mag2V (v : VectorCoefs ℂ) : Res TCoefs :=
  (mag2VC v).bind fun d => .ok ⟨⟨d.vec.map fun x : ℝ => (x : ℂ), d.nmax, d.mmax⟩, .float64, true⟩

/-- `mag(v)` of a vector set, spherepy.py 1730-1732. -/
noncomputable def magV (v : VectorCoefs ℂ) : Res TCoefs :=
  (magVC v).bind fun d => .ok ⟨⟨d.vec.map fun x : ℝ => (x : ℂ), d.nmax, d.mmax⟩, .float64, true⟩

/-- `ispht(a, nrows, ncols)`, spherepy.py 2020-2079, with the wrapper's checks (2070, csphi_wrap.c 4309-4331) in front of the C
routine.  The Python routine `pysphi.sc_to_fc` (2072-2075) takes any array. -/
noncomputable def ispht (b : Backend) (a : TCoefs) (nrows ncols : Option Int) : Res (SPatt ℂ) :=
  let nr := nrows.getD (a.c.nmax + 2)
  let nc := ncols.getD (2 * a.c.mmax + 2)
  (isphtGuards a.c.nmax a.c.mmax nr nc).bind fun _ =>
  let dn := 2 * nr - 2
  (match b with
    | .py => Verif.scToFc a.c.vec a.c.nmax a.c.mmax dn nc
    | .c J =>
      (npZeros2 dn nc).bind fun z =>
      (swigArray1 a.dt a.contig).bind fun _ =>
      (cScToFc z.flat z.rows z.cols a.c.vec a.c.nmax a.c.mmax (J 0)).bind fun l =>
      .ok (unflat z.rows z.cols l)).bind fun f =>
  (invFourier f dn nc).bind fun ds =>
  SPatt.init (.arr ds) true

end TCoefs

/-- `VectorCoefs(vec1, vec2, nmax, mmax)`, spherepy.py 638-660, with element types: `vec[0] = 0 + 1j*0` (653-654) assigns a Python
complex number, which a real array refuses with TypeError.  The checks before it do not depend on the type. -/
def vinitTyped (v1 v2 : List ℂ) (dt1 dt2 : DType) (nmax mmax : Int) : Res (VectorCoefs ℂ) :=
  if v1.length ≠ v2.length then .error (raise .valueError "vec1_s_vec2")
  else if mmax > nmax then .error (raise .valueError "nmax_g_mmax")
  else if ncFormula nmax mmax ≠ v1.length then .error (raise .valueError "vcoef_size")
  else if dt1 ≠ .complex128 ∨ dt2 ≠ .complex128 then .error ⟨.typeError, "can't convert complex to float"⟩
  else VectorCoefs.init (.arr v1) (.arr v2) nmax mmax

/-- How a program can have obtained a scalar coefficient set: a source, then arithmetic, copies, magnitudes and in-place changes.
Sources as in `TCoefs.fresh`; `edited` stands for any in-place change (item assignment, `window`, writes through
columns: spherepy.py 264-269, 371-437), which keeps the array object and hence its type and layout. -/
inductive CExpr where
  | zeros (nmax mmax : Int)
  | ones (nmax mmax : Int)
  | random (z : Nat → ℝ) (nmax mmax : Int) (mu sigma : ℝ)
  | spht (b : Backend) (p : SPatt ℂ) (nmax mmax : Option Int)
  | load (F : FloatText) (text : Text)
  | array (vec : List ℂ) (dt : DType) (contig : Bool) (nmax mmax : Int)
  | copy (a : CExpr)
  | op (o : Op) (a b : CExpr)
  | opNum (o : Op) (a : CExpr) (x : ℂ) (dx : DType)
  | opNumR (o : Op) (x : ℂ) (dx : DType) (a : CExpr)
  | abs (a : CExpr)
  | mag2V (v : VectorCoefs ℂ)
  | magV (v : VectorCoefs ℂ)
  | edited (a : CExpr) (f : ScalarCoefs ℂ → Eff (ScalarCoefs ℂ))

/-- The left summand of a `Sum`-valued factory result (scalar sets), spherepy.py 1394-1468. -/
def scalarOf (r : Res (ScalarCoefs ℂ ⊕ VectorCoefs ℂ)) : Res (ScalarCoefs ℂ) :=
  r.bind fun
    | .inl c => .ok c
    | .inr _ => .error ⟨.exception, "vector"⟩

/-- The set a program obtains; citations at the constructors of `TCoefs` above (spherepy.py 194-243, 542-634, 1394-1511, 1704-1732). -/
noncomputable def CExpr.eval : CExpr → Res TCoefs
  | .zeros n m => (scalarOf (coefFactory 0 n m 0)).bind fun c => .ok (.fresh c)
  | .ones n m => (scalarOf (coefFactory 1 n m 0)).bind fun c => .ok (.fresh c)
  | .random z n m mu sigma => (scalarOf (randomCoefs z n m mu sigma 0)).bind fun c => .ok (.fresh c)
  | .spht b p n m => (Verif.spht b p n m).bind fun c => .ok (.fresh c)
  | .load F s => (loadCoef F s).bind fun c => .ok (.fresh c)
  | .array v dt k n m => TCoefs.ofArray v dt k n m
  | .copy a => a.eval.bind fun t => t.copy
  | .op o a b => a.eval.bind fun s => b.eval.bind fun t => TCoefs.op o s t
  | .opNum o a x dx => a.eval.bind fun t => TCoefs.opNum o t x dx
  | .opNumR o x dx a => a.eval.bind fun t => TCoefs.opNumR o x dx t
  | .abs a => a.eval.bind fun t => t.abs
  | .mag2V v => TCoefs.mag2V v
  | .magV v => TCoefs.magV v
  | .edited a f => a.eval.bind fun t => .ok { t with c := (f t.c).st }

end Verif
