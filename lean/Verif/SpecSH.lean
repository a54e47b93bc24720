import Verif.Math.Legendre
import Mathlib.Analysis.SpecialFunctions.Trigonometric.Basic
import Mathlib.Analysis.SpecialFunctions.Pow.Real
/-!
# Specification: orthonormal spherical harmonics (Condon-Shortley phase)

Independent of the model: textbook definition via Rodrigues' formula (`legendre` in
`Math/Legendre.lean`).
-/
namespace Verif
open Polynomial

/-- Normalisation `sqrt((2n+1)/(4π) · (n-m)!/(n+m)!)`, `m = |m|`. -/
noncomputable def normSH (n m : ℕ) : ℝ :=
  Real.sqrt ((2 * n + 1) / (4 * Real.pi) * ((n - m).factorial / (n + m).factorial))

/-- The θ-part of `Y_nm`: `(-1)^m sqrt((2n+1)/(4π)(n-m)!/(n+m)!) sin^m θ (d/dx)^m P_n (cos θ)` for `m ≥ 0`, and
`Y_{n,-m} = (-1)^m conj Y_{n,m}`, so the sign is absent for `m < 0`. -/
noncomputable def thetaPart (n : ℕ) (m : ℤ) (θ : ℝ) : ℝ :=
  (if 0 ≤ m then (-1) ^ m.natAbs else 1) * normSH n m.natAbs *
    (Real.sin θ ^ m.natAbs * (derivative^[m.natAbs] (legendre n)).eval (Real.cos θ))

/-- The orthonormal spherical harmonic `Y_nm(θ, φ)`. -/
noncomputable def sphY (n : ℕ) (m : ℤ) (θ φ : ℝ) : ℂ :=
  (thetaPart n m θ : ℂ) * Complex.exp (m * (φ * Complex.I))

end Verif
