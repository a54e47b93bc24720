import Verif.FloatPyConv
import Verif.FloatPow
/-!
# NumPy's two-dimensional FFTs in double precision

`np.fft.fft2` transforms along the last axis and then along the first (`_raw_fftnd`), with the one-dimensional transforms `np.fft.fft` and `np.fft.ifft`, which stay parameters.
-/
namespace Verif
namespace Fl
noncomputable section
variable (rnd : ℝ → ℝ)

/-- A one-dimensional transform along the last axis: what `np.fft.fft2` (spherepy.py 1882) does first. -/
def axis1 (g : List (FC rnd) → Res (List (FC rnd))) (A : Arr2 (FC rnd)) : Res (Arr2 (FC rnd)) :=
  (mapM' (List.range A.rows) fun i => g (tab A.cols fun j => A.at' i j)).bind fun L =>
  .ok (Arr2.ofFn A.rows A.cols fun i j => rd (L.getD i []) j)

/-- A one-dimensional transform along the first axis: what `np.fft.fft2` (spherepy.py 1882) does last. -/
def axis0 (g : List (FC rnd) → Res (List (FC rnd))) (A : Arr2 (FC rnd)) : Res (Arr2 (FC rnd)) :=
  (mapM' (List.range A.cols) fun j => g (tab A.rows fun i => A.at' i j)).bind fun L =>
  .ok (Arr2.ofFn A.rows A.cols fun i j => rd (L.getD j []) i)

/-- Both axes, as in `np.fft.fft2` and `np.fft.ifft2` (spherepy.py 1882, 2077); an axis of length 0 raises ValueError. -/
def fftBoth (g : List (FC rnd) → Res (List (FC rnd))) (A : Arr2 (FC rnd)) : Res (Arr2 (FC rnd)) :=
  if A.rows = 0 ∨ A.cols = 0 then .error ⟨.valueError, "Invalid number of FFT data points (0)"⟩
  else (axis1 rnd g A).bind fun B => axis0 rnd g B

/-- `np.fft.fft2(ds) / (dnrows * ncols)`, spherepy.py 1882, 1927, 1933: the Python integer is converted to complex128. -/
def fft2Norm (np : Fft1 rnd) (A : Arr2 (FC rnd)) : Res (Arr2 (FC rnd)) :=
  (fftBoth rnd np.fft A).bind fun f => .ok (f.map fun z => z / (⟨Fl.ofInt rnd ((A.rows : Int) * A.cols), 0⟩ : FC rnd))

/-- `np.fft.ifft2(fdata) * dnrows * ncols`, spherepy.py 2077, 2136-2137. -/
def ifft2Scaled (np : Fft1 rnd) (f : Arr2 (FC rnd)) (dn nc : Int) : Res (Arr2 (FC rnd)) :=
  (fftBoth rnd np.ifft f).bind fun d => .ok (d.map fun z => z * (⟨Fl.ofInt rnd dn, 0⟩ : FC rnd) * (⟨Fl.ofInt rnd nc, 0⟩ : FC rnd))

/-- What `spht` and `vspht` (spherepy.py 1836-1966) take from outside spherepy when they run on the Python routines: CPython's complex power (with the C
    library `lm` below it), NumPy's one-dimensional FFTs `np` and the order in which `np.sum` adds.  The two-dimensional FFT is `fft2Norm`, the convolution `pyConv`. -/
def npLib (lm : Libm) (np : Fft1 rnd) (sum : List (FC rnd) → FC rnd) : NumLib rnd :=
  { jp := pow1j rnd lm, fft := fft2Norm rnd np, conv := pyConv rnd np, sum := sum }

end
end Fl
end Verif
