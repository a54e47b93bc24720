import Verif.CInt
import Verif.Typed
/-!
# The generated wrapper around the C routines, argument by argument

`src/csphi_wrap.c` turns the Python objects handed to `csphi.fc_to_sc` and `csphi.sc_to_fc` into C arguments.  Modelled for Python 3 (lines 727-728: `PyInt_Check` is
`PyLong_Check`) on a machine with 64-bit `long` and 32-bit `int`.  The transforms are modelled again with the type of every limit the user passes: a Python `int`, or
a NumPy integer (`np.int64` etc.), which in Python 3 is not an instance of `int`.
-/
namespace Verif

/-- The Python objects the wrapper distinguishes, csphi_wrap.c 3062-3115, 3234-3452.  `other` is anything that is neither an integer nor an array (floats, None, strings, ...). -/
inductive PyObj where
  | int (v : Int)
  | npInt (v : Int)
  | arr1 (a : List ℂ) (dt : DType) (contig : Bool)
  | arr2 (a : Arr2 ℂ) (dt : DType) (contig : Bool)
  | other

/-- The range of a 64-bit `long`.  C runtime; csphi_wrap.c 3062-3079. -/
def InLong (x : Int) : Prop := -9223372036854775808 ≤ x ∧ x ≤ 9223372036854775807

instance (x : Int) : Decidable (InLong x) := by unfold InLong; infer_instance

/-- `SWIG_AsVal_long`, csphi_wrap.c 3062-3099, for Python 3: an `int` goes through `PyLong_AsLong`, whose error (an `int` that does not fit a `long`) is not looked at: the
value is -1 and the exception stays pending (the flag).  Any other object: TypeError. -/
def swigAsLong : PyObj → Res (Int × Bool)
  | .int v => if InLong v then .ok (v, false) else .ok (-1, true)
  | _ => .error ⟨.typeError, "argument of type 'int'"⟩

/-- `SWIG_AsVal_int`, csphi_wrap.c 3101-3114, with the caller's error branch (4190-4199 etc.). -/
def swigAsInt (o : PyObj) : Res (Int × Bool) :=
  (swigAsLong o).bind fun v => if InInt v.1 then .ok v else .error ⟨.exception, "OverflowError"⟩

/-- A one-dimensional in-place array argument, csphi_wrap.c 4182-4189: type, number of dimensions, layout. -/
def swigArr1 : PyObj → Res (List ℂ)
  | .arr1 a dt contig => (swigArray1 dt contig).bind fun _ => .ok a
  | .arr2 _ dt _ => .error ⟨.typeError, if dt ≠ .complex128 then "Array of type 'complex double' required" else "Array must have 1 dimensions"⟩
  | _ => .error ⟨.typeError, "Array of type 'complex double' required"⟩

/-- A two-dimensional in-place array argument, csphi_wrap.c 4174-4181, 4304-4311. -/
def swigArr2 : PyObj → Res (Arr2 ℂ)
  | .arr2 a dt contig => (swigArray1 dt contig).bind fun _ => .ok a
  | .arr1 _ dt _ => .error ⟨.typeError, if dt ≠ .complex128 then "Array of type 'complex double' required" else "Array must have 2 dimensions"⟩
  | _ => .error ⟨.typeError, "Array of type 'complex double' required"⟩

/-- `(int) array_size(array, i)`, csphi_wrap.c 4179-4180, 4309-4310: the lower 32 bits. -/
def castInt (x : Nat) : Int := Int.bmod x (2 ^ 32)

/-- Python's treatment of a C function that returns a value with an exception pending (csphi_wrap.c 4200-4202, 4330-4332): SystemError. -/
def swigReturn {α : Type} (pending : Bool) (r : α) : Res α :=
  if pending then .error ⟨.exception, "SystemError"⟩ else .ok r

noncomputable section

/-- `_wrap_fc_to_sc`, csphi_wrap.c 4156-4205: the new contents of the second argument. -/
def wrapFcToSc (o0 o1 o2 o3 : PyObj) (J : CJunk) : Res (List ℂ) :=
  (swigArr2 o0).bind fun f =>
  (swigArr1 o1).bind fun sc =>
  (swigAsInt o2).bind fun n =>
  (swigAsInt o3).bind fun m =>
  (xFcToSc f.flat (castInt f.rows) (castInt f.cols) sc n.1 m.1 J).bind fun l =>
  swigReturn (n.2 || m.2) l

/-- `_wrap_sc_to_fc`, csphi_wrap.c 4286-4335: the new contents of the first argument. -/
def wrapScToFc (o0 o1 o2 o3 : PyObj) (J : CJunk) : Res (List ℂ) :=
  (swigArr2 o0).bind fun f =>
  (swigArr1 o1).bind fun sc =>
  (swigAsInt o2).bind fun n =>
  (swigAsInt o3).bind fun m =>
  (xScToFc f.flat (castInt f.rows) (castInt f.cols) sc n.1 m.1 J).bind fun l =>
  swigReturn (n.2 || m.2) l

/-- An integer limit as the user passes it: a Python `int` or a NumPy integer (spherepy.py 1831, 1894-1898: `nmax`, `mmax`). -/
structure Lim where
  np : Bool
  val : Int

/-- The object handed to the wrapper, spherepy.py 1896, 2070. -/
def Lim.obj (l : Lim) : PyObj := if l.np then .npInt l.val else .int l.val

/-- Which of the two backends is in use, spherepy.py 1895, 2068. -/
inductive Back where
  | py
  | c (J : Nat → CJunk)

/-- The limits `spht` and `vspht` work with, spherepy.py 1861-1865: `ssphere.nrows - 2` and `int(..)` are Python integers; a missing `mmax` becomes the object passed as `nmax`. -/
def limArgs (nrows ncols : Res Nat) (nmax mmax : Option Lim) : Res (Lim × Lim) :=
  match nmax with
  | none => (sphtArgs nrows ncols none none).bind fun (n, m) => .ok (⟨false, n⟩, ⟨false, m⟩)
  | some n => .ok (n, mmax.getD n)

/-- The call of `fc_to_sc`, spherepy.py 1893-1898, 1944-1954. -/
def Back.fcToSc (b : Back) (call : Nat) (f : Arr2 ℂ) (nmax mmax : Lim) : Res (List ℂ) :=
  match b with
  | .py => Backend.py.fcToSc call f nmax.val mmax.val
  | .c J => (npFull (ncFormula nmax.val mmax.val) (0 : ℂ)).bind fun sc =>
      wrapFcToSc (.arr2 f .complex128 true) (.arr1 sc .complex128 true) nmax.obj mmax.obj (J call)

/-- The call of `sc_to_fc`, spherepy.py 2068-2075, 2113-2128.  `dt`, `contig` describe the coefficient array. -/
def Back.scToFc (b : Back) (call : Nat) (vec : List ℂ) (dt : DType) (contig : Bool) (nmax mmax : Lim) (dnrows ncols : Int) : Res (Arr2 ℂ) :=
  match b with
  | .py => Backend.py.scToFc call vec nmax.val mmax.val dnrows ncols
  | .c J => (npZeros2 dnrows ncols).bind fun z =>
      (wrapScToFc (.arr2 z .complex128 true) (.arr1 vec dt contig) nmax.obj mmax.obj (J call)).bind fun l =>
      .ok (unflat z.rows z.cols l)

/-- A scalar coefficient set with the types of its array and of its limits, spherepy.py 194-207: the constructor stores the objects it was given. -/
structure LSet where
  vec : List ℂ
  dt : DType
  contig : Bool
  nmax : Lim
  mmax : Lim

/-- The values alone, spherepy.py 194-217. -/
def LSet.coefs (c : LSet) : ScalarCoefs ℂ := ⟨c.vec, c.nmax.val, c.mmax.val⟩

/-- A vector coefficient set with the types of its limits (its arrays are complex, see `vinitTyped`), spherepy.py 638-670. -/
structure LVSet where
  c : VectorCoefs ℂ
  npN : Bool
  npM : Bool

/-- `spht(ssphere, nmax, mmax)`, spherepy.py 1831-1900. -/
def wSpht (b : Back) (p : SPatt ℂ) (nmax mmax : Option Lim) : Res LSet :=
  (limArgs p.nrows p.ncols nmax mmax).bind fun (n, m) =>
  (sphtGuards p.nrows p.ncols n.val m.val).bind fun _ =>
  p.dsphere.bind fun ds =>
  (extFourier ds).bind fun f =>
  (sinFc f).bind fun f =>
  (npFull (ncFormula n.val m.val) (0 : ℂ)).bind fun _ =>
  (b.fcToSc 0 f n m).bind fun sc =>
  (ScalarCoefs.init (.arr sc) n.val m.val).bind fun c => .ok ⟨c.vec, .complex128, true, n, m⟩

/-- `vspht(vsphere, nmax, mmax)`, spherepy.py 1902-1966. -/
def wVspht (b : Back) (p : TPatt ℂ) (nmax mmax : Option Lim) : Res LVSet :=
  (limArgs (.ok p.nrows) (.ok p.ncols) nmax mmax).bind fun (n, m) =>
  (sphtGuards (.ok p.nrows) (.ok p.ncols) n.val m.val).bind fun _ =>
  (extFourier p.td).bind fun ft =>
  (vspht.extFourier' p.td p.pd).bind fun pt =>
  (sinLdotFc ft pt).bind fun l1 =>
  (sinLdotFc (pt.map fun x => -Complex.I * x) (ft.map fun x => Complex.I * x)).bind fun l2 =>
  (b.fcToSc 0 l1 n m).bind fun sc1 =>
  (b.fcToSc 1 l2 n m).bind fun sc2 =>
  (VectorCoefs.init (.arr sc1) (.arr sc2) n.val m.val).bind fun vc =>
  (nvec n.val).bind fun w =>
  (vc.scoef1.windowed w).bind fun s1 =>
  (vc.scoef2.windowed w).bind fun s2 =>
  .ok ⟨{ vc with scoef1 := s1, scoef2 := s2 }, n.np, m.np⟩

/-- `ispht(scoefs, nrows, ncols)`, spherepy.py 2020-2079.  The type of `nrows` and `ncols` does not matter: they only size arrays. -/
def wIspht (b : Back) (c : LSet) (nrows ncols : Option Int) : Res (SPatt ℂ) :=
  let nr := nrows.getD (c.nmax.val + 2)
  let nc := ncols.getD (2 * c.mmax.val + 2)
  (isphtGuards c.nmax.val c.mmax.val nr nc).bind fun _ =>
  let dn := 2 * nr - 2
  (b.scToFc 0 c.vec c.dt c.contig c.nmax c.mmax dn nc).bind fun f =>
  (invFourier f dn nc).bind fun ds =>
  SPatt.init (.arr ds) true

/-- `vispht(vcoefs, nrows, ncols)`, spherepy.py 2081-2139; the copies (2108-2109) are contiguous and keep the limits; the second C call uses the limits of the first set. -/
def wVispht (b : Back) (c : LVSet) (nrows ncols : Option Int) : Res (TPatt ℂ) :=
  let nr := nrows.getD (c.c.nmax + 2)
  let nc := ncols.getD (2 * c.c.mmax + 2)
  (visphtGuards c.c.nmax c.c.mmax nr nc).bind fun _ =>
  let dn := 2 * nr - 2
  (nvec c.c.nmax).bind fun w =>
  c.c.scoef1.copy.bind fun s1 =>
  c.c.scoef2.copy.bind fun s2 =>
  (s1.windowed w).bind fun s1 =>
  (s2.windowed w).bind fun s2 =>
  (b.scToFc 0 s1.vec .complex128 true ⟨c.npN, s1.nmax⟩ ⟨c.npM, s1.mmax⟩ dn nc).bind fun f1 =>
  (match b with
    | .py => b.scToFc 1 s2.vec .complex128 true ⟨c.npN, s2.nmax⟩ ⟨c.npM, s2.mmax⟩ dn nc
    | .c _ => b.scToFc 1 s2.vec .complex128 true ⟨c.npN, s1.nmax⟩ ⟨c.npM, s1.mmax⟩ dn nc).bind fun f2 =>
  (lFc f1).bind fun l1 =>
  (lFc f2).bind fun l2 =>
  let ftheta := l1.1.zip (fun a b => a - Complex.I * b) l2.2
  let fphi := l1.2.zip (fun a b => a + Complex.I * b) l2.1
  (invFourier ftheta dn nc).bind fun dt =>
  (invFourier fphi dn nc).bind fun dp =>
  TPatt.init (.arr dt) (.arr dp) true

end
end Verif
