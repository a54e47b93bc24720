import Verif.FloatYnm
import Verif.Bessel
/-!
# Spherical Bessel functions in double precision

`sbessely`, `sbesselj`, `sbesselh1`, `sbesselh2` of spherepy/sbessel.py (49-122) with every operation rounded (`IsRounding`, FloatArith.lean).  The argument is a Python
float; `np.cos`, `np.sin` and `x ** 2` (the C library's `pow`) are the parameters of `BesLib`.  Simplification: a NumPy division by zero, which
continues with an infinity in the code, stops with an error here, so a theorem that says a call returns also says that no such division happens.
-/
namespace Verif
namespace Fl
open Classical

/-- The library functions used by sbessel.py 59-60, 78-81. -/
structure BesLib where
  cos : ℝ → ℝ
  sin : ℝ → ℝ
  sq : ℝ → ℝ

noncomputable section
variable (rnd : ℝ → ℝ)

/-- `a / b` on NumPy floats (sbessel.py 59-60, 80-81, 96): a zero divisor would give an infinity. -/
def npDiv (a b : ℝ) : Res ℝ := if b = 0 then .error ⟨.exception, "infinite"⟩ else .ok (rnd (a / b))

/-- `sbessely(x, N)`, sbessel.py 49-65, in doubles. -/
def sbessely (lib : BesLib) (x : ℝ) (N : Int) : Res (List ℝ) :=
  (npFull N (0 : ℝ)).bind fun out =>
  (npDiv rnd (-lib.cos x) x).bind fun a =>
  (setIdx out 0 a).bind fun out =>
  (npDiv rnd (-lib.cos x) (lib.sq x)).bind fun b =>
  (npDiv rnd (lib.sin x) x).bind fun c =>
  (setIdx out 1 (rnd (b - c))).bind fun out =>
  forM' (pyRange 2 N) out fun out n =>
    if x = 0 then .error ⟨.zeroDivisionError, "float division by zero"⟩
    else
      (getIdx out (n - 1)).bind fun a =>
      (getIdx out (n - 2)).bind fun b =>
      setIdx out n (rnd (rnd (rnd (rnd (rnd (2 * ofInt rnd n) - 1) / x) * a) - b))

/-- The new value of `u` in the loop of `sbesselj`, sbessel.py 89: the divisor of `1 / (...)`. -/
def sbjDen (z u : ℝ) (n : Int) : ℝ := rnd (1 - rnd (rnd (z * u) / rnd (rnd (4 * ofInt rnd (n ^ 2)) - 1)))

/-- The `while` loop of `sbesselj`, sbessel.py 87-91, in doubles, from the state `(u, v, w, n)`; `none` is divergence. -/
def sbjLoop (z u v w : ℝ) (n : Int) : Option (Res ℝ) :=
  if w = 0 then some (.error ⟨.zeroDivisionError, "float division by zero"⟩)
  else if |rnd (v / w)| > rnd (1 / 10 ^ 20) then
    if sbjDen rnd z u (n + 1) = 0 then some (.error ⟨.zeroDivisionError, "float division by zero"⟩)
    else
      let u := rnd (1 / sbjDen rnd z u (n + 1))
      let v := rnd (v * rnd (u - 1))
      sbjLoop z u v (rnd (w + v)) (n + 1)
  else some (.ok w)
partial_fixpoint

/-- `sbesselj(x, N)`, sbessel.py 67-106, in doubles. -/
def sbesselj (lib : BesLib) (x : ℝ) (N : Int) : Res (List ℝ) :=
  let nmax := N - 1
  (npFull N (0 : ℝ)).bind fun out =>
  let z := lib.sq x
  (npDiv rnd (lib.sin x) x).bind fun j0 =>
  (setIdx out 0 j0).bind fun out =>
  (npDiv rnd (lib.sin x) z).bind fun b =>
  (npDiv rnd (lib.cos x) x).bind fun c =>
  let j1 := rnd (b - c)
  let v := rnd (x / rnd (rnd (2 * ofInt rnd nmax) + 1))
  ((orDiverge (sbjLoop rnd z 1 v v nmax)).bind id).bind fun w =>
  (setIdx out nmax w).bind fun out =>
  (forM' (pyRangeNeg (nmax - 1) 0 1) out fun out n =>
    (getIdx out (n + 1)).bind fun o =>
    (npDiv rnd 1 (rnd (rnd (rnd (rnd (2 * ofInt rnd n) + 1) / x) - o))).bind fun r =>
    setIdx out n r).bind fun out =>
  (getIdx out 0).bind fun o0 =>
  (if |o0| ≥ |j1| then (getIdx out 1).bind fun o1 => setIdx out 1 (rnd (o1 * o0)) else setIdx out 1 j1).bind fun out =>
  forM' (pyRange 1 nmax) out fun out n =>
    (getIdx out (n + 1)).bind fun a =>
    (getIdx out n).bind fun b =>
    setIdx out (n + 1) (rnd (a * b))

/-- `sbesselh1(x, N)`, sbessel.py 108-114: `jn + 1j * yn` (`1j * yn` has real part `0 * yn`, so nothing is rounded). -/
def sbesselh1 (lib : BesLib) (x : ℝ) (N : Int) : Res (List (ℝ × ℝ)) :=
  (sbesselj rnd lib x N).bind fun jn => (sbessely rnd lib x N).bind fun yn =>
  bcast (fun (a b : ℝ) => (a, b)) jn yn

/-- `sbesselh2(x, N)`, sbessel.py 116-122: `jn - 1j * yn`. -/
def sbesselh2 (lib : BesLib) (x : ℝ) (N : Int) : Res (List (ℝ × ℝ)) :=
  (sbesselj rnd lib x N).bind fun jn => (sbessely rnd lib x N).bind fun yn =>
  bcast (fun (a b : ℝ) => (a, -b)) jn yn

end
end Fl
end Verif
