import Verif.File
import Verif.Transforms
import Verif.CoefsFn
/-!
# Model of `spherepy/verify.py`

Each routine loads files, runs a transform and returns a tuple of four numbers: the two norms of the difference and the same
norms relative to the loaded object.  A file is its text.  The two quotients are kept as numerator (the first two fields) and
denominator (the last two): the float division itself (`nan`/`inf` for a zero denominator) is not modelled.
-/
namespace Verif

/-- The returned tuple `(l2, linf, l2 / l2Ref, linf / linfRef)` of the routines of verify.py 50-73, 84-118. -/
structure VerifyReport where
  l2 : ℝ
  linf : ℝ
  l2Ref : ℝ
  linfRef : ℝ

/-- `verify_spht(pattfile, scoeffile)`, verify.py 50-60. -/
noncomputable def verifySpht (F : FloatText) (b : Backend) (pattfile scoeffile : Text) : Res VerifyReport :=
  (loadPatt F pattfile).bind fun fpatt =>
  (loadCoef F scoeffile).bind fun fsc =>
  (spht b fpatt (some fsc.nmax) (some fsc.mmax)).bind fun sc =>
  (fsc.opLeft .sub (.obj sc)).bind fun diff =>
  (linfSC diff).bind fun a =>
  (linfSC fsc).bind fun r =>
  .ok ⟨l2SC diff, a, l2SC fsc, r⟩

/-- `verify_ispht(pattfile, scoeffile)`, verify.py 62-72. -/
noncomputable def verifyIspht (F : FloatText) (b : Backend) (pattfile scoeffile : Text) : Res VerifyReport :=
  (loadCoef F scoeffile).bind fun fsc =>
  (loadPatt F pattfile).bind fun fpatt =>
  fpatt.nrows.bind fun nr =>
  fpatt.ncols.bind fun nc =>
  (ispht b fsc (some (nr : Int)) (some (nc : Int))).bind fun patt =>
  (fpatt.opLeft .sub (.obj patt)).bind fun diff =>
  diff.l2.bind fun a =>
  diff.linf.bind fun a' =>
  fpatt.l2.bind fun r =>
  fpatt.linf.bind fun r' =>
  .ok ⟨a, a', r, r'⟩

/-- `verify_fdata(fdatafile, scoeffile)`, verify.py 74-82: always the C routine, on a zero array of the shape of the loaded
data. -/
noncomputable def verifyFdata (F : FloatText) (J : Nat → CJunk) (fdatafile scoeffile : Text) : Res ℝ :=
  (loadCoef F scoeffile).bind fun fsc =>
  (loadFdata F fdatafile).bind fun fdata =>
  ((Backend.c J).scToFc 0 fsc.vec fsc.nmax fsc.mmax (fdata.rows : Int) (fdata.cols : Int)).bind fun ffdata =>
  npMax ((fdata.zip (fun x y => x - y) ffdata).toList.map (fun x => ‖x‖))

/-- `verify_vspht(pattf1, pattf2, scoeff1, scoeff2)`, verify.py 84-99. -/
noncomputable def verifyVspht (F : FloatText) (b : Backend) (pattf1 pattf2 scoeff1 scoeff2 : Text) : Res VerifyReport :=
  (loadVpatt F pattf1 pattf2).bind fun vfpatt =>
  (loadCoef F scoeff1).bind fun fsc1 =>
  (loadCoef F scoeff2).bind fun fsc2 =>
  (VectorCoefs.init (.arr fsc1.vec) (.arr fsc2.vec) fsc1.nmax fsc1.mmax).bind fun vfsc =>
  (vspht b vfpatt (some fsc1.nmax) (some fsc1.mmax)).bind fun vsc =>
  (vfsc.opLeft .sub (.obj vsc)).bind fun diff =>
  (linfVC diff).bind fun a =>
  (linfVC vfsc).bind fun r =>
  .ok ⟨l2VC diff, a, l2VC vfsc, r⟩

/-- `verify_vispht(pattf1, pattf2, scoeff1, scoeff2)`, verify.py 101-117. -/
noncomputable def verifyVispht (F : FloatText) (b : Backend) (pattf1 pattf2 scoeff1 scoeff2 : Text) : Res VerifyReport :=
  (loadVpatt F pattf1 pattf2).bind fun vfpatt =>
  (loadCoef F scoeff1).bind fun fsc1 =>
  (loadCoef F scoeff2).bind fun fsc2 =>
  (VectorCoefs.init (.arr fsc1.vec) (.arr fsc2.vec) fsc1.nmax fsc1.mmax).bind fun vfsc =>
  (vispht b vfsc (some (vfpatt.nrows : Int)) (some (vfpatt.ncols : Int))).bind fun vpatt =>
  (vfpatt.opLeft .sub (.obj vpatt)).bind fun diff =>
  diff.linf.bind fun a =>
  vfpatt.linf.bind fun r =>
  .ok ⟨diff.l2, a, vfpatt.l2, r⟩

end Verif
