import Verif.FloatAnal
/-!
# The fast convolution of pysphi.py in double precision

`s_data`, `hkm_fc` and the first lines of `bnm_vec_fc` (pysphi.py 121-176) with every operation rounded.  NumPy's one-dimensional FFTs are
parameters (`Fft1`): they are compiled code that is not part of the repository.  The sign of zero is not represented.
-/
namespace Verif
namespace Fl

/-- NumPy's one-dimensional FFTs on `complex128` arrays, pysphi.py 165-167. -/
structure Fft1 (rnd : ℝ → ℝ) where
  /-- `np.fft.fft` -/
  fft : List (FC rnd) → Res (List (FC rnd))
  /-- `np.fft.ifft` -/
  ifft : List (FC rnd) → Res (List (FC rnd))

noncomputable section
variable (rnd : ℝ → ℝ)

/-- Division of two Python complex numbers (CPython's `_Py_c_quot`), used at pysphi.py 145 (`-1j / nu`). -/
def cpDiv (a b : FC rnd) : FC rnd :=
  if |b.im| ≤ |b.re| then
    let ratio := rnd (b.im / b.re)
    let denom := rnd (b.re + rnd (b.im * ratio))
    ⟨rnd (rnd (a.re + rnd (a.im * ratio)) / denom), rnd (rnd (a.im - rnd (a.re * ratio)) / denom)⟩
  else
    let ratio := rnd (b.re / b.im)
    let denom := rnd (rnd (b.re * ratio) + b.im)
    ⟨rnd (rnd (rnd (a.re * ratio) + a.im) / denom), rnd (rnd (rnd (a.im * ratio) - a.re) / denom)⟩

/-- `s_data(nrows_fdata, Nmax, Q)`, pysphi.py 121-147, in doubles. -/
def sData (L1 : Nat) (Nmax Q : Int) : Res (List (FC rnd)) :=
  if L1 % 2 = 1 then .error ⟨.exception, "nrows_fdata must be even."⟩
  else
    (npFull Q (0 : FC rnd)).bind fun s =>
    let MM : Int := L1 / 2
    forM' (pyRange (-MM) (MM + Nmax + 1)) s (fun s nu =>
      if nu % 2 = 1 then setIdx s (nu - MM) (cpDiv rnd ⟨0, -1⟩ ⟨(nu : ℝ), 0⟩) else .ok s)

/-- `fdata[:, m]` on `complex128`, pysphi.py 152 (negative `m` counts from the end). -/
def colOf (A : Arr2 (FC rnd)) (m : Int) : Res (List (FC rnd)) :=
  if -(A.cols : Int) ≤ m ∧ m < A.cols then .ok (tab A.rows fun i => A.at' i (Arr2.wrap A.cols m))
  else .error ⟨.indexError, "index"⟩

/-- The double `4 * np.pi`, pysphi.py 167. -/
def pyFourPi : ℝ := rnd (4 * rnd Real.pi)

/-- `hkm_fc(fdata, Nmax, m, s)`, pysphi.py 149-169, in doubles.  The two copy loops are the comprehension of `Verif.hkmFc` (they write disjoint
slots of `ff`); `F * S` and the product with `4 * np.pi` are complex products (the real factor is converted). -/
def hkmFc (np : Fft1 rnd) (fdata : Arr2 (FC rnd)) (Nmax m : Int) (s : List (FC rnd)) : Res (List (FC rnd)) :=
  (Fl.colOf rnd fdata m).bind fun f =>
  let L1 := f.length
  let MM := L1 / 2
  let Q := s.length
  if L1 > Q then .error ⟨.indexError, "index"⟩
  else
    let ff := tab Q fun n => if n < MM then rd f (n + MM) else if n < L1 then rd f (n - MM) else 0
    (np.fft ff).bind fun F =>
    (np.fft s).bind fun S =>
    (bcast (· * ·) F S).bind fun FS =>
    (np.ifft FS).bind fun out =>
    .ok (getSlice (out.map (fun x => (⟨pyFourPi rnd, 0⟩ : FC rnd) * x)) 0 (Nmax + 1))

/-- `h` of `bnm_vec_fc(fdata, Nmax, m)`, pysphi.py 173-176, in doubles. -/
def pyConv (np : Fft1 rnd) (fdata : Arr2 (FC rnd)) (Nmax m : Int) : Res (List (FC rnd)) :=
  (orDiverge (smallestPrimeFactor (fdata.rows + Nmax))).bind fun Q =>
  (Fl.sData rnd fdata.rows Nmax Q).bind fun s =>
  Fl.hkmFc rnd np fdata Nmax m s

/-- The library results that the Python routines take from NumPy: everything in `NumLib`, with the convolution computed by `pyConv`.
    Used by `bnm_vec_fc`, pysphi.py 171-191. -/
def pyLib (lib : NumLib rnd) (np : Fft1 rnd) : NumLib rnd := { lib with conv := pyConv rnd np }

end
end Fl
end Verif
