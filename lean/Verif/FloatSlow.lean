import Verif.FloatAnal
/-!
# The slow transforms in double precision

`spht_slow` and `ispht_slow` (spherepy.py 1968-2018, 2141-2182), with every operation rounded; they always use the Python backend.
-/
namespace Verif
namespace Fl
noncomputable section
variable (rnd : ℝ → ℝ)

/-- `spht_slow(ssphere, nmax, mmax)`, spherepy.py 1968-2018, in doubles. -/
def sphtSlow (lib : NumLib rnd) (p : SPatt (FC rnd)) (nmax mmax : Int) : Res (ScalarCoefs (FC rnd)) :=
  if mmax > nmax then .error (raise .valueError "nmax_g_mmax")
  else p.dsphere.bind fun ds =>
    if ds.rows % 2 = 1 ∨ ds.cols % 2 = 1 then .error (raise .valueError "ncols_even")
    else
      (Fl.sphtPre rnd lib ds).bind fun f =>
      (Fl.fcToSc rnd lib f nmax mmax).bind fun sc =>
      ScalarCoefs.init (.arr sc) nmax mmax

/-- `ispht_slow(scoefs, nrows, ncols)`, spherepy.py 2141-2182, in doubles; `post` is line 2180 (the inverse FFT and the scaling). -/
def isphtSlow (jp : Int → FC rnd) (post : Arr2 (FC rnd) → Int → Int → Res (Arr2 (FC rnd))) (c : ScalarCoefs (FC rnd)) (nrows ncols : Int) : Res (SPatt (FC rnd)) :=
  let dn := 2 * nrows - 2
  if ncols % 2 = 1 then .error (raise .valueError "ncols_even")
  else
    (Fl.scToFc rnd jp c.vec c.nmax c.mmax dn ncols).bind fun f =>
    (post f dn ncols).bind fun ds =>
    SPatt.init (.arr ds) true

end
end Fl
end Verif
