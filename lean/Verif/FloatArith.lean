import Verif.FloatText
import Verif.Pattern
/-!
# Rounded arithmetic on doubles

NumPy's `complex128` arithmetic as used by `double_sphere` (spherepy/spherepy.py 1751-1782): every real operation is the exact
operation followed by a rounding `rnd`; complex products and quotients are composed of real operations the way NumPy composes
them.  The rounding is a parameter: all that is assumed (`IsRounding`) is IEEE 754 round-to-nearest below `2^1023`, with any
rule for ties that treats `x` and `-x` alike (ties-to-even does).  Nothing is assumed about larger values, so a theorem
about this arithmetic cannot rest on an operation that overflows.  Simplification: infinities, NaN and the sign of zero are not
represented (`==` in Python does not distinguish the zeros).
-/
namespace Verif

/-- Round-to-nearest, IEEE 754 binary64 (the arithmetic under spherepy.py 1751-1782). -/
structure IsRounding (rnd : ℝ → ℝ) : Prop where
  double : ∀ x, |x| ≤ 2 ^ 1023 → IsDouble (rnd x)
  nearest : ∀ x, |x| ≤ 2 ^ 1023 → ∀ d, IsDouble d → |x - rnd x| ≤ |x - d|
  odd : ∀ x, |x| ≤ 2 ^ 1023 → rnd (-x) = -rnd x

/-- A `complex128` value (element type of the arrays at spherepy.py 1751-1782). -/
@[ext] structure FC (rnd : ℝ → ℝ) where
  re : ℝ
  im : ℝ

namespace FC
variable {rnd : ℝ → ℝ}

noncomputable section

/-- `0`, spherepy.py 1777 (`s * t == 0`). -/
instance : Zero (FC rnd) := ⟨⟨0, 0⟩⟩
/-- The Python number 1 converted to complex128 (`sym`, spherepy.py 993). -/
instance : One (FC rnd) := ⟨⟨1, 0⟩⟩
/-- The Python number 2 converted to complex128, spherepy.py 1780. -/
instance : OfNat (FC rnd) 2 := ⟨⟨2, 0⟩⟩
/-- Negation is exact (`-1` at spherepy.py 1181-1182). -/
instance : Neg (FC rnd) := ⟨fun a => ⟨-a.re, -a.im⟩⟩
/-- NumPy complex addition, used at spherepy.py 1778, 1780. -/
instance : Add (FC rnd) := ⟨fun a b => ⟨rnd (a.re + b.re), rnd (a.im + b.im)⟩⟩
/-- NumPy complex subtraction, used at spherepy.py 584-590, 1115-1121. -/
instance : Sub (FC rnd) := ⟨fun a b => ⟨rnd (a.re - b.re), rnd (a.im - b.im)⟩⟩
/-- NumPy complex multiplication (four products, two sums), used at spherepy.py 1772, 1777. -/
instance : Mul (FC rnd) :=
  ⟨fun a b => ⟨rnd (rnd (a.re * b.re) - rnd (a.im * b.im)), rnd (rnd (a.re * b.im) + rnd (a.im * b.re))⟩⟩
/-- NumPy complex division (Smith's algorithm), used at spherepy.py 1780. -/
instance : Div (FC rnd) :=
  ⟨fun a b =>
    if |b.im| ≤ |b.re| then
      let rat := rnd (b.im / b.re)
      let scl := rnd (1 / rnd (b.re + rnd (b.im * rat)))
      ⟨rnd (rnd (a.re + rnd (a.im * rat)) * scl), rnd (rnd (a.im - rnd (a.re * rat)) * scl)⟩
    else
      let rat := rnd (b.re / b.im)
      let scl := rnd (1 / rnd (b.im + rnd (b.re * rat)))
      ⟨rnd (rnd (rnd (a.re * rat) + a.im) * scl), rnd (rnd (rnd (a.im * rat) - a.re) * scl)⟩⟩
/-- `==` on complex128 (spherepy.py 1777). -/
instance : DecidableEq (FC rnd) := Classical.decEq _

end
end FC

end Verif
