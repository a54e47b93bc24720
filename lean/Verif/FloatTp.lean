import Verif.FloatPow
import Verif.FloatYnm
import Verif.Transforms
/-!
# `sph_harmonic_tp` in double precision

spherepy.py 2221-2246, with every operation rounded.  `np.exp` of a complex number, the order in which `np.sum` adds, and libm (inside CPython's `1j ** m`) are parameters.
-/
namespace Verif
namespace Fl
noncomputable section
variable (rnd : ℝ → ℝ)

open Classical in
/-- `np.linspace(0.0, b, num)` in doubles, spherepy.py 2234-2235: `arange(0, num) * (b / (num - 1))`, or, if that step is zero, `arange(0, num) / (num - 1) * b`; then the last point
is set to `b` (for `num > 1`).  Adding `start = 0.0` changes nothing.  NumPy runtime. -/
def linspace (b : ℝ) (num : Nat) : List ℝ :=
  tab num fun i =>
    if num = 1 then 0
    else if i + 1 = num then b
    else if rnd (b / ofInt rnd ((num : Int) - 1)) = 0 then rnd (rnd (ofInt rnd i / ofInt rnd ((num : Int) - 1)) * b)
    else rnd (ofInt rnd i * rnd (b / ofInt rnd ((num : Int) - 1)))

/-- `1j * k * x` with an integer `k` and a float `x`, both converted to complex numbers, spherepy.py 2241, 2244. -/
def phase (k : Int) (x : ℝ) : FC rnd := (⟨0, 1⟩ : FC rnd) * ⟨ofInt rnd k, 0⟩ * ⟨x, 0⟩

/-- `2.0 * np.pi - 2.0 * np.pi / ncols`, spherepy.py 2235. -/
def phiMax (ncols : Int) : ℝ := rnd (rnd (2 * rnd Real.pi) - rnd (rnd (2 * rnd Real.pi) / ofInt rnd ncols))

/-- `sph_harmonic_tp(nrows, ncols, n, m)`, spherepy.py 2221-2246, in doubles; `cexp` is `np.exp`, `sum` is `np.sum`. -/
def sphHarmonicTp (lm : Libm) (cexp : FC rnd → FC rnd) (sum : List (FC rnd) → FC rnd) (nrows ncols n m : Int) : Res (Arr2 (FC rnd)) :=
  (Fl.ynunm rnd n m (n + 1)).bind fun nuvec =>
  let num := (List.map (fun (y : ℝ) => rnd (y * (-1) ^ m)) (getSlice nuvec 1 nuvec.length)).reverse
  let yvec := num ++ nuvec
  if nrows < 0 then .error ⟨.valueError, "Number of samples must be non-negative"⟩
  else if ncols = 0 then .error ⟨.zeroDivisionError, "float division by zero"⟩
  else
    let theta := linspace rnd (rnd Real.pi) nrows.toNat
    let phi := linspace rnd (phiMax rnd ncols) 50
    let nu := pyRange (-n) (n + 1)
    (npZeros2 nrows ncols).bind fun out =>
    forM' (pyRange 0 nrows) out fun out nn =>
      (getIdx theta nn).bind fun th =>
      let expVec := List.map (fun (v : Int) => cexp (phase rnd v th)) nu
      forM' (pyRange 0 ncols) out fun out mm =>
        (bcast (fun (y : ℝ) (e : FC rnd) => (⟨y, 0⟩ : FC rnd) * e) yvec expVec).bind fun prod =>
        (getIdx phi mm).bind fun ph =>
        .ok (Arr2.ofFn out.rows out.cols fun i j =>
          if (i : Int) = nn ∧ (j : Int) = mm then pow1j rnd lm m * cexp (phase rnd m ph) * sum prod
          else out.at' i j)

end
end Fl
end Verif
