import Verif.FloatSynth
import Verif.FloatSum
import Verif.SphiSeg
/-!
# Analysis in double precision

`sin_fc` (ops.py 83-102), `bnm_vec_fc` and `fc_to_sc` of pysphi.py (171-203), `bnm_fc` and `fc_to_sc` of csphi.c (254-408) and `spht`
(spherepy.py 1831-1900), with every operation rounded.  Three library results are parameters (`NumLib`), because they are computed by
code that is not modelled in doubles: NumPy's two-dimensional FFT with the division that follows it, the fast convolution
(`s_data`, `hkm_fc`: NumPy's FFT in pysphi.py 149-169, kiss_fft in csphi.c 186-232), and the order in which `np.sum` adds.
C is assumed to evaluate doubles as doubles (no excess precision, no fused multiply-add), and `pow(-1.0, e)` to be exactly ±1.
-/
namespace Verif
namespace Fl

/-- The library results that `spht` uses in doubles. -/
structure NumLib (rnd : ℝ → ℝ) where
  /-- CPython's `1j ** m`, pysphi.py 184, 187 -/
  jp : Int → FC rnd
  /-- `np.fft.fft2(ds) / (dnrows * ncols)`, spherepy.py 1882 -/
  fft : Arr2 (FC rnd) → Res (Arr2 (FC rnd))
  /-- `h` of `bnm_vec_fc(fdata, Nmax, m)`, pysphi.py 173-176; `hkm` of `bnm_fc`, csphi.c 268-274 -/
  conv : Arr2 (FC rnd) → Int → Int → Res (List (FC rnd))
  /-- `np.sum` of a complex array, pysphi.py 187 -/
  sum : List (FC rnd) → FC rnd

noncomputable section
variable (rnd : ℝ → ℝ)

/-- `sin_fc`, ops.py 83-102, in doubles. -/
def sinFc (f : Arr2 (FC rnd)) : Res (Arr2 (FC rnd)) :=
  if f.rows < 3 then rowIndexError
  else
    let f := f.setRow ((f.rows - 2) / 2) fun _ => 0
    let f := f.setRow ((f.rows + 2) / 2) fun _ => 0
    .ok (Arr2.ofFn f.rows f.cols fun i j =>
      (1 / ((2 : FC rnd) * ⟨0, 1⟩)) *
        (f.at' (if i = 0 then f.rows - 1 else i - 1) j - f.at' (if i = f.rows - 1 then 0 else i + 1) j))

/-- The loop body of `bnm_vec_fc`, pysphi.py 180-187: products of complex and real values are complex products (the real value is converted). -/
def bnmBody (lib : NumLib rnd) (h : List (FC rnd)) (m : Int) (out : List (FC rnd)) (n : Int) : Res (List (FC rnd)) :=
  (Fl.ynunm rnd n m (n + 1)).bind fun ynm =>
  (getIdx h 0).bind fun h0 =>
  (getIdx ynm 0).bind fun y0 =>
  (setIdx out (n - |m|) (lib.jp (-m) * h0 * ⟨y0, 0⟩)).bind fun out =>
  if n ≠ 0 then
    (bcast (fun (a : FC rnd) (b : ℝ) => a * (⟨b, 0⟩ : FC rnd)) (getSlice h 1 (n + 1)) (getSlice ynm 1 (n + 1))).bind fun p =>
    (getIdx out (n - |m|)).bind fun o =>
    setIdx out (n - |m|) (o + lib.jp (-m) * 2 * lib.sum p)
  else .ok out

/-- `bnm_vec_fc(fdata, Nmax, m)`, pysphi.py 171-191, in doubles. -/
def bnmVecFc (lib : NumLib rnd) (fdata : Arr2 (FC rnd)) (Nmax m : Int) : Res (List (FC rnd)) :=
  (lib.conv fdata Nmax m).bind fun h =>
  (npFull (Nmax - |m| + 1) (0 : FC rnd)).bind fun out =>
  forM' (pyRange |m| (Nmax + 1)) out (Fl.bnmBody rnd lib h m)

/-- `fc_to_sc(gcoef, Nmax, Mmax)`, pysphi.py 193-203, in doubles. -/
def fcToSc (lib : NumLib rnd) (gcoef : Arr2 (FC rnd)) (Nmax Mmax : Int) : Res (List (FC rnd)) :=
  (Fl.bnmVecFc rnd lib gcoef Nmax 0).bind fun c =>
  forM' (pyRange 1 (Mmax + 1)) c (fun c m =>
    (Fl.bnmVecFc rnd lib gcoef Nmax (-m)).bind fun a =>
    (Fl.bnmVecFc rnd lib gcoef Nmax m).bind fun b => .ok (c ++ a ++ b))

/-- `i**(-m) * v` as `bnm_fc` computes it, csphi.c 291-301, in doubles. -/
def cMulIPowNeg (m : Int) (v : FC rnd) : FC rnd :=
  if (|m|).tmod 2 = 1 then
    ⟨rnd (cPowNegOne ((m - 1).tdiv 2) * v.im), rnd (-cPowNegOne ((m - 1).tdiv 2) * v.re)⟩
  else ⟨rnd (cPowNegOne (m.tdiv 2) * v.re), rnd (cPowNegOne (m.tdiv 2) * v.im)⟩

/-- Body of the `n` loop of `bnm_fc`, csphi.c 276-302, in doubles; `vec` is `sc` at offset `off`; state `(sc, y)`. -/
def cBnmBody (m : Int) (off : Int) (hkm : List (FC rnd)) (Ly : Int) (st : List (FC rnd) × List ℝ) (n : Int) :
    Res (List (FC rnd) × List ℝ) :=
  (Fl.cYnunm rnd n m st.2 Ly).bind fun y =>
  let p := off + (n - |m|)
  (cGet hkm 0).bind fun h0 => (cGet y 0).bind fun y0 =>
  (cSet st.1 p ⟨rnd (h0.re * y0), rnd (h0.im * y0)⟩).bind fun sc =>
  (forM' (pyRange 1 (n + 1)) sc (fun sc k =>
    (cGet sc p).bind fun v => (cGet hkm k).bind fun h => (cGet y k).bind fun yk =>
    cSet sc p ⟨rnd (v.re + rnd (rnd (2 * h.re) * yk)), rnd (v.im + rnd (rnd (2 * h.im) * yk))⟩)).bind fun sc =>
  (cGet sc p).bind fun v =>
  (cSet sc p (Fl.cMulIPowNeg rnd m v)).bind fun sc =>
  .ok (sc, y)

/-- `bnm_fc`, csphi.c 254-303, in doubles; state `(sc, y)`. -/
def cBnmFc (lib : NumLib rnd) (fdata : Arr2 (FC rnd)) (Nmax m off Ly : Int) (st : List (FC rnd) × List ℝ) : Res (List (FC rnd) × List ℝ) :=
  (lib.conv fdata Nmax m).bind fun hkm =>
  forM' (pyRange |m| (Nmax + 1)) st (Fl.cBnmBody rnd m off hkm Ly)

/-- `fc_to_sc(fdata, Nrow, Ncol, sc, L, Nmax, Mmax)`, csphi.c 317-408, in doubles: the final content of `sc`.  The work arrays of the
convolution belong to `lib.conv`. -/
def cFcToSc (lib : NumLib rnd) (fdata : Arr2 (FC rnd)) (sc : List (FC rnd)) (Nmax Mmax : Int) (J : CJunk) : Res (List (FC rnd)) :=
  (cMalloc (Nmax + 1) J.r).bind fun y =>
  (cMalloc (2 * Mmax + 1) J.i).bind fun inds =>
  (cMemset0 inds (2 * Mmax + 1)).bind fun inds =>
  (cInds Nmax Mmax inds).bind fun inds =>
  (Fl.cBnmFc rnd lib fdata Nmax 0 0 (Nmax + 1) (sc, y)).bind fun st =>
  (forM' (pyRange 1 (Mmax + 1)) st (fun st m =>
    (cGet inds (2 * m - 1)).bind fun o1 =>
    (Fl.cBnmFc rnd lib fdata Nmax (-m) o1 (Nmax + 1) st).bind fun st =>
    (cGet inds (2 * m)).bind fun o2 =>
    Fl.cBnmFc rnd lib fdata Nmax m o2 (Nmax + 1) st)).bind fun st =>
  .ok st.1

/-- `csphi.fc_to_sc` on `sc = np.zeros(NC)`, or `pysphi.fc_to_sc`, in doubles: spherepy.py 1890-1898. -/
def backendFcToSc (lib : NumLib rnd) (b : Backend) (call : Nat) (f : Arr2 (FC rnd)) (nmax mmax : Int) : Res (List (FC rnd)) :=
  match b with
  | .py => Fl.fcToSc rnd lib f nmax mmax
  | .c J => (npFull (ncFormula nmax mmax) (0 : FC rnd)).bind fun sc => Fl.cFcToSc rnd lib f sc nmax mmax (J call)

/-- The array handed to `fc_to_sc`, spherepy.py 1882-1889, in doubles. -/
def sphtPre (lib : NumLib rnd) (ds : Arr2 (FC rnd)) : Res (Arr2 (FC rnd)) :=
  (lib.fft ds).bind fun f =>
  (fixEvenRow f).bind fun f =>
  (padRows f (ds.rows + 2)).bind fun f =>
  Fl.sinFc rnd f

/-- `spht(ssphere, nmax, mmax)`, spherepy.py 1831-1900, in doubles. -/
def spht (lib : NumLib rnd) (b : Backend) (p : SPatt (FC rnd)) (nmax mmax : Option Int) : Res (ScalarCoefs (FC rnd)) :=
  (sphtArgs p.nrows p.ncols nmax mmax).bind fun (n, m) =>
  (sphtGuards p.nrows p.ncols n m).bind fun _ =>
  p.dsphere.bind fun ds =>
  (Fl.sphtPre rnd lib ds).bind fun f =>
  (npFull (ncFormula n m) (0 : FC rnd)).bind fun _ =>
  (Fl.backendFcToSc rnd lib b 0 f n m).bind fun sc =>
  ScalarCoefs.init (.arr sc) n m

end
end Fl
end Verif
