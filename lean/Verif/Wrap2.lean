import Verif.Wrap
/-!
# The remaining routines of the compiled extension, as called from Python

`csphi.ynnm`, `csphi.ynunm`, `csphi.FindQ`, `csphi.SData` (spherepy/csphi.py 93-107) with the argument conversion of src/csphi_wrap.c.  `args` is the argument tuple.  The wrappers
of `hkm_fc`, `bnm_fc` and `fcvec_m_sc` take raw pointers that Python code cannot make and are not modelled.
-/
namespace Verif
noncomputable section

/-- `PyArg_ParseTuple` with the wrong number of arguments, csphi_wrap.c 3726, 3762, 3796, 3828. -/
def swigArity {α : Type} : Res α := .error ⟨.typeError, "takes exactly"⟩

/-- A one-dimensional in-place array of doubles, csphi_wrap.c 3772-3779.  The elements of a `float64` array are the real parts of the (complex) list of `PyObj`. -/
def swigDbl1 : PyObj → Res (List ℝ)
  | .arr1 a dt contig =>
    if dt ≠ .float64 then .error ⟨.typeError, "Array of type 'double' required"⟩
    else if contig = false then .error ⟨.typeError, "Array must be contiguous"⟩
    else .ok (a.map Complex.re)
  | .arr2 _ dt _ => .error ⟨.typeError, if dt ≠ .float64 then "Array of type 'double' required" else "Array must have 1 dimensions"⟩
  | _ => .error ⟨.typeError, "Array of type 'double' required"⟩

/-- `_wrap_ynnm`, csphi_wrap.c 3713-3742. -/
def wrapYnnm : List PyObj → Res ℝ
  | [o0, o1] =>
    (swigAsInt o0).bind fun n =>
    (swigAsInt o1).bind fun m =>
    (xYnnm n.1 m.1).bind fun v => swigReturn (n.2 || m.2) v
  | _ => swigArity

/-- `_wrap_ynunm`, csphi_wrap.c 3744-3785: the new contents of the array.  `arg4` (3778) is the length, as an `int`. -/
def wrapYnunm : List PyObj → Res (List ℝ)
  | [o0, o1, o2] =>
    (swigAsInt o0).bind fun n =>
    (swigAsInt o1).bind fun m =>
    (swigDbl1 o2).bind fun y =>
    (xYnunm n.1 m.1 y (castInt y.length)).bind fun l => swigReturn (n.2 || m.2) l
  | _ => swigArity

/-- `_wrap_FindQ`, csphi_wrap.c 3787-3807. -/
def wrapFindQ : List PyObj → Res Int
  | [o0] => (swigAsInt o0).bind fun S => (xFindQ S.1).bind fun Q => swigReturn S.2 Q
  | _ => swigArity

/-- `_wrap_SData`, csphi_wrap.c 3809-3850: the new contents of the array. -/
def wrapSData : List PyObj → Res (List ℂ)
  | [o0, o1, o2] =>
    (swigArr1 o0).bind fun s =>
    (swigAsInt o1).bind fun r =>
    (swigAsInt o2).bind fun n =>
    (xSData s (castInt s.length) r.1 n.1).bind fun l => swigReturn (r.2 || n.2) l
  | _ => swigArity

end
end Verif
