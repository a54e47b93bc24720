import Verif.FileX
import Verif.FloatBessel
/-!
# Spherical Bessel functions of the second kind beyond the double range

`sbessely`, `sbesselh1` and `sbesselh2` of spherepy/sbessel.py (49-65, 108-122) in IEEE arithmetic with infinities, NaN and signed zeros (`IE`, FileX.lean).
The argument `x` is a finite Python float; the library values `np.cos(x)`, `np.sin(x)`, `x ** 2` are finite and given by `BesLib`
(FloatBessel.lean).  NumPy's floating-point warnings have no effect on the values and are not modelled.
-/
namespace Verif

namespace IE
open Classical in
/-- `x / y` on NumPy floats: IEEE 754, a zero divisor gives an infinity or NaN.  NumPy runtime; sbessel.py 59-60. -/
noncomputable def div (rnd : ℝ → ℝ) (a b : IE) : IE :=
  match a, b with
  | .nan, _ => .nan
  | _, .nan => .nan
  | .inf _, .inf _ => .nan
  | .zero _, .zero _ => .nan
  | .inf _, _ => .inf (xor a.sign b.sign)
  | _, .inf _ => .zero (xor a.sign b.sign)
  | .zero _, _ => .zero (xor a.sign b.sign)
  | _, .zero _ => .inf (xor a.sign b.sign)
  | .fin x, .fin y => ofReal (xor a.sign b.sign) (rnd (x / y))

/-- A Python float with this finite value (a zero is `+0.0`). -/
noncomputable def lit (x : ℝ) : IE := ofReal false x
end IE

namespace FlX

/-- `sbessely(x, N)`, sbessel.py 49-65.  In the loop `(2.0 * n - 1.0) / x` is an operation on Python floats, which raises for `x = 0`. -/
noncomputable def sbessely (rnd : ℝ → ℝ) (lib : Fl.BesLib) (x : ℝ) (N : Int) : Res (List IE) :=
  (npFull N (IE.zero false)).bind fun out =>
  (setIdx out 0 (IE.div rnd (IE.neg (IE.lit (lib.cos x))) (IE.lit x))).bind fun out =>
  (setIdx out 1 (IE.sub rnd (IE.div rnd (IE.neg (IE.lit (lib.cos x))) (IE.lit (lib.sq x))) (IE.div rnd (IE.lit (lib.sin x)) (IE.lit x)))).bind fun out =>
  forM' (pyRange 2 N) out fun out n =>
    if x = 0 then .error ⟨.zeroDivisionError, "float division by zero"⟩
    else
      (getIdx out (n - 1)).bind fun a =>
      (getIdx out (n - 2)).bind fun b =>
      setIdx out n (IE.sub rnd (IE.mul rnd (IE.div rnd (IE.sub rnd (IE.mul rnd (IE.lit 2) (IE.lit (Fl.ofInt rnd n))) (IE.lit 1)) (IE.lit x)) a) b)

/-- `jn + 1j * yn`, sbessel.py 114: NumPy converts both real arrays to complex ones with imaginary (and, for the factor, real) part `0.0`. -/
noncomputable def hankel1 (rnd : ℝ → ℝ) (j y : IE) : IE × IE := IE.cadd rnd (IE.toC j) (IE.cmul rnd (.zero false, .fin 1) (IE.toC y))

/-- `jn - 1j * yn`, sbessel.py 122. -/
noncomputable def hankel2 (rnd : ℝ → ℝ) (j y : IE) : IE × IE :=
  (IE.sub rnd (IE.toC j).1 (IE.cmul rnd (.zero false, .fin 1) (IE.toC y)).1, IE.sub rnd (IE.toC j).2 (IE.cmul rnd (.zero false, .fin 1) (IE.toC y)).2)

/-- `sbesselh1(x, N)`, sbessel.py 108-114, with the values `jn` of `sbesselj(x, N)` (FloatBessel.lean, finite numbers). -/
noncomputable def sbesselh1 (rnd : ℝ → ℝ) (lib : Fl.BesLib) (x : ℝ) (N : Int) : Res (List (IE × IE)) :=
  (Fl.sbesselj rnd lib x N).bind fun jn => (sbessely rnd lib x N).bind fun yn =>
  bcast (hankel1 rnd) (jn.map IE.lit) yn

/-- `sbesselh2(x, N)`, sbessel.py 116-122. -/
noncomputable def sbesselh2 (rnd : ℝ → ℝ) (lib : Fl.BesLib) (x : ℝ) (N : Int) : Res (List (IE × IE)) :=
  (Fl.sbesselj rnd lib x N).bind fun jn => (sbessely rnd lib x N).bind fun yn =>
  bcast (hankel2 rnd) (jn.map IE.lit) yn

end FlX
end Verif
