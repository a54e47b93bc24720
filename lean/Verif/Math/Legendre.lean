import Mathlib.Algebra.Polynomial.Derivative
import Mathlib.Data.Real.Basic
import Mathlib.Data.Nat.Factorial.Basic
import Mathlib.Tactic.Ring
import Mathlib.Tactic.Linarith
import Mathlib.Tactic.LinearCombination
import Mathlib.Tactic.FieldSimp
/-!
# Legendre polynomials by Rodrigues' formula and the associated differential equation
-/
namespace Verif
open Polynomial

/-- `(x² - 1)^n`. -/
noncomputable def rodU (n : ℕ) : ℝ[X] := (X ^ 2 - 1) ^ n

/-- The Legendre polynomial `P_n = 1/(2^n n!) dⁿ/dxⁿ (x²-1)^n` (Rodrigues' formula). -/
noncomputable def legendre (n : ℕ) : ℝ[X] :=
  C (1 / (2 ^ n * (n.factorial : ℝ))) * derivative^[n] (rodU n)

/-- `d^m/dx^m P_n`. -/
noncomputable def legD (n m : ℕ) : ℝ[X] := derivative^[m] (legendre n)

theorem rodU_base (n : ℕ) : (X ^ 2 - 1) * derivative (rodU n) = C (2 * (n : ℝ)) * X * rodU n := by
  unfold rodU
  cases n with
  | zero => simp
  | succ n =>
    rw [derivative_pow_succ]
    simp only [derivative_sub, derivative_X_sq, derivative_one, sub_zero, map_mul, map_add, map_natCast, map_one,
      Nat.cast_add, Nat.cast_one]
    simp only [map_ofNat]
    ring

/-- The `j`-th derivative of the first-order equation of `(x²-1)^n`. -/
theorem rodU_ode (n j : ℕ) :
    (X ^ 2 - 1) * derivative^[j + 2] (rodU n) + C (2 * (j + 1) - 2 * (n : ℝ)) * X * derivative^[j + 1] (rodU n)
      + C ((j + 1) * j - 2 * n * (j + 1) : ℝ) * derivative^[j] (rodU n) = 0 := by
  induction j with
  | zero =>
    have h := congrArg derivative (rodU_base n)
    simp only [derivative_mul, derivative_sub, derivative_X_sq, derivative_one, sub_zero, derivative_C,
      derivative_X, zero_mul, zero_add, mul_one] at h
    simp only [Function.iterate_succ_apply', Function.iterate_zero, id, Nat.cast_zero, zero_add, mul_one,
      zero_sub, mul_zero, map_sub, map_neg]
    simp only [map_ofNat, map_mul, map_natCast] at h ⊢
    linear_combination h
  | succ j ih =>
    have h := congrArg derivative ih
    simp only [derivative_mul, derivative_add, derivative_sub, derivative_X_sq, derivative_one, sub_zero,
      derivative_C, derivative_X, zero_mul, zero_add, mul_one, derivative_zero,
      ← Function.iterate_succ_apply' derivative] at h
    simp only [map_sub, map_mul, map_add, map_natCast, map_one, Nat.cast_add, Nat.cast_one] at h ⊢
    simp only [map_ofNat] at h ⊢
    linear_combination h

/-- Associated Legendre equation for `Q = D^m P_n`:
`(1-x²)Q'' - 2(m+1)xQ' + (n-m)(n+m+1)Q = 0`. -/
theorem legD_ode (n m : ℕ) :
    (1 - X ^ 2) * legD n (m + 2) - C (2 * ((m : ℝ) + 1)) * X * legD n (m + 1)
      + C (((n : ℝ) - m) * (n + m + 1)) * legD n m = 0 := by
  have h := rodU_ode n (n + m)
  unfold legD legendre
  simp only [iterate_derivative_C_mul, ← Function.iterate_add_apply]
  rw [show m + 2 + n = n + m + 2 by ring, show m + 1 + n = n + m + 1 by ring, show m + n = n + m by ring]
  generalize C (1 / (2 ^ n * (n.factorial : ℝ))) = K
  simp only [map_sub, map_mul, map_add, map_natCast, map_one, Nat.cast_add] at h ⊢
  simp only [map_ofNat] at h ⊢
  linear_combination (-K) * h

theorem derivative_legD (n m : ℕ) : derivative (legD n m) = legD n (m + 1) := by
  unfold legD; rw [Function.iterate_succ_apply']

end Verif
