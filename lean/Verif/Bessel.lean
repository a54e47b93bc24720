import Verif.Sphi
/-!
# Spherical Bessel functions (spherepy/sbessel.py)

Real arithmetic.  The argument `x` is a Python float, so the scalar divisions inside the `while` loop raise
ZeroDivisionError; divisions involving NumPy values give `inf`/`nan` in the code and `0` here (theorems exclude them).
-/
namespace Verif
open Classical

/-- `sbessely(x, N)`, sbessel.py 49-65. -/
noncomputable def sbessely (x : ℝ) (N : Int) : Res (List ℝ) :=
  (npFull N (0 : ℝ)).bind fun out =>
  (setIdx out 0 (-Real.cos x / x)).bind fun out =>
  (setIdx out 1 (-Real.cos x / x ^ 2 - Real.sin x / x)).bind fun out =>
  forM' (pyRange 2 N) out fun out n =>
    (getIdx out (n - 1)).bind fun a =>
    (getIdx out (n - 2)).bind fun b =>
    setIdx out n ((2.0 * (n : ℝ) - 1.0) / x * a - b)

/-- The `while` loop of `sbesselj`, sbessel.py 87-91, from the state `(u, v, w, n)`; `none` is divergence. -/
noncomputable def sbjLoop (z u v w : ℝ) (n : Int) : Option (Res ℝ) :=
  if w = 0 then some (.error ⟨.zeroDivisionError, "float division by zero"⟩)
  else if |v / w| > 1e-20 then
    if 1 - z * u / (4.0 * ((n + 1 : Int) : ℝ) ^ 2 - 1.0) = 0 then some (.error ⟨.zeroDivisionError, "float division by zero"⟩)
    else
      let u := 1 / (1 - z * u / (4.0 * ((n + 1 : Int) : ℝ) ^ 2 - 1.0))
      let v := v * (u - 1)
      sbjLoop z u v (w + v) (n + 1)
  else some (.ok w)
partial_fixpoint

/-- `sbesselj(x, N)`, sbessel.py 67-106. -/
noncomputable def sbesselj (x : ℝ) (N : Int) : Res (List ℝ) :=
  let nmax := N - 1
  (npFull N (0 : ℝ)).bind fun out =>
  let z := x ^ 2
  (setIdx out 0 (Real.sin x / x)).bind fun out =>
  let j1 := Real.sin x / z - Real.cos x / x
  let v := x / (2.0 * (nmax : ℝ) + 1.0)
  ((orDiverge (sbjLoop z 1 v v nmax)).bind id).bind fun w =>
  (setIdx out nmax w).bind fun out =>
  (forM' (pyRangeNeg (nmax - 1) 0 1) out fun out n =>
    (getIdx out (n + 1)).bind fun o =>
    setIdx out n (1.0 / ((2.0 * (n : ℝ) + 1.0) / x - o))).bind fun out =>
  (getIdx out 0).bind fun o0 =>
  (if |o0| ≥ |j1| then (getIdx out 1).bind fun o1 => setIdx out 1 (o1 * o0) else setIdx out 1 j1).bind fun out =>
  forM' (pyRange 1 nmax) out fun out n =>
    (getIdx out (n + 1)).bind fun a =>
    (getIdx out n).bind fun b =>
    setIdx out (n + 1) (a * b)

/-- `sbesselh1(x, N)`, sbessel.py 108-114: `jn + 1j * yn`. -/
noncomputable def sbesselh1 (x : ℝ) (N : Int) : Res (List ℂ) :=
  (sbesselj x N).bind fun jn => (sbessely x N).bind fun yn =>
  bcast (fun (a b : ℝ) => (a : ℂ) + Complex.I * (b : ℂ)) jn yn

/-- `sbesselh2(x, N)`, sbessel.py 116-122: `jn - 1j * yn`. -/
noncomputable def sbesselh2 (x : ℝ) (N : Int) : Res (List ℂ) :=
  (sbesselj x N).bind fun jn => (sbessely x N).bind fun yn =>
  bcast (fun (a b : ℝ) => (a : ℂ) - Complex.I * (b : ℂ)) jn yn

end Verif
