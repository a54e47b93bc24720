import Verif.SphiS
import Mathlib.Algebra.BigOperators.Field
/-!
# θ-derivatives of the spherical harmonics on the Fourier side
-/
namespace Verif
open Polynomial Trig Finset

/-- `m Θ_nm / sin θ` as a trigonometric polynomial. -/
noncomputable def Hth (n m : ℕ) : Trig := (m : Trig) * (ls ^ (m - 1) * aeval lc (legD n m))

theorem ls_mul_Hth (n m : ℕ) : ls * Hth n m = (m : Trig) * Theta n m := by
  unfold Hth Theta
  cases m with
  | zero => simp
  | succ m => rw [Nat.add_sub_cancel, pow_succ]; ring

theorem ls_ne_zero : (ls : Trig) ≠ 0 := by
  intro h
  have := ev_ls (Real.pi / 2)
  rw [h, map_zero, Real.sin_pi_div_two] at this
  norm_num at this

/-- The associated Legendre equation after division by `sin θ`. -/
theorem theta_ode_div (n m : ℕ) : del (ls * del (Theta n m)) + (m : Trig) * Hth n m = ((n : Trig) * (n + 1)) * (ls * Theta n m) := by
  apply mul_left_cancel₀ ls_ne_zero
  have h := theta_ode n m
  have h2 := ls_mul_Hth n m
  linear_combination h + (m : Trig) * h2

theorem coeff_natCast_mul (a : ℕ) (f : Trig) (k : ℤ) : ((a : Trig) * f).coeff k = (a : ℂ) * f.coeff k := by
  rw [show (a : Trig) = LaurentPolynomial.C (a : ℂ) by simp, coeff_C_mul]

theorem Hth_symm (n m : ℕ) (k : ℤ) : (Hth n m).coeff (-k) = -((-1) ^ m * (Hth n m).coeff k) := by
  cases m with
  | zero => simp [Hth]
  | succ m =>
    have h : LaurentPolynomial.invert (Hth n (m + 1)) = LaurentPolynomial.C ((-1) ^ m) * Hth n (m + 1) := by
      unfold Hth
      rw [map_mul, map_natCast, map_mul, map_pow, invert_ls, invert_aeval_lc, map_pow, map_neg, map_one, Nat.add_sub_cancel, neg_pow]; ring
    rw [← coeff_invert, h, coeff_C_mul]
    ring

theorem Hth_support (n m : ℕ) (k : ℤ) (hk : (n : ℤ) ≤ |k|) : (Hth n m).coeff k = 0 := by
  have pos : ∀ k : ℤ, (n : ℤ) ≤ k → (Hth n m).coeff k = 0 := by
    intro k hk
    unfold Hth
    rw [coeff_natCast_mul]
    cases m with
    | zero => simp
    | succ m =>
      by_cases h : m + 1 ≤ n
      · have h1 := (lead_aeval_lc (legD n (m + 1)) (n - (m + 1)) (legD_natDegree n (m + 1))).mul_ls_pow m
        rw [Nat.add_sub_cancel, mul_comm (ls ^ m), h1.1 k (by omega), mul_zero]
      · rw [legD_eq_zero n (m + 1) (by omega)]; simp
  rcases abs_choice k with e | e
  · exact pos k (by omega)
  · rw [show k = -(-k) by ring, Hth_symm, pos (-k) (by omega)]; simp

/-- Fourier coefficients of `m * (θ-part of Y_nm) / sin θ`, divided by `i^m`. -/
noncomputable def hcoef (n : ℕ) (m k : ℤ) : ℂ := (normSH n m.natAbs : ℂ) * Complex.I ^ m.natAbs * ((m.sign : ℂ) * (Hth n m.natAbs).coeff k)

theorem sign_natAbs (m : ℤ) : ((m.sign : ℤ) : ℂ) * (m.natAbs : ℂ) = (m : ℂ) := by
  have := congrArg (fun x : ℤ => (x : ℂ)) (Int.sign_mul_natAbs m)
  simpa only [Int.cast_mul, Int.cast_natCast] using this

theorem hcoef_support (n : ℕ) (m k : ℤ) (h : (n : ℤ) ≤ |k|) : hcoef n m k = 0 := by
  unfold hcoef; rw [Hth_support n _ k h]; simp

theorem hcoef_symm (n : ℕ) (m k : ℤ) : hcoef n m (-k) = -((-1) ^ m.natAbs * hcoef n m k) := by
  unfold hcoef; rw [Hth_symm]; ring

theorem hcoef_sin (n : ℕ) (m k : ℤ) : (hcoef n m (k - 1) - hcoef n m (k + 1)) / (2 * Complex.I) = m * ycoef n m k := by
  have h := congrArg (fun f : Trig => f.coeff k) (ls_mul_Hth n m.natAbs)
  simp only [coeff_ls_mul, coeff_natCast_mul] at h
  have hI : (2 * Complex.I) ≠ 0 := mul_ne_zero two_ne_zero Complex.I_ne_zero
  unfold hcoef ycoef
  rw [div_eq_iff hI, ← sign_natAbs m]
  linear_combination (2 * Complex.I * (normSH n m.natAbs : ℂ) * Complex.I ^ m.natAbs * (m.sign : ℂ)) * h +
    ((normSH n m.natAbs : ℂ) * Complex.I ^ m.natAbs * (m.sign : ℂ) * ((Hth n m.natAbs).coeff (k - 1) - (Hth n m.natAbs).coeff (k + 1))) * Complex.I_sq

/-- The differential equation on the Fourier side, after division by `sin θ`. -/
theorem ycoef_ode (n : ℕ) (m k : ℤ) :
    k * (((k - 1 : ℤ) * ycoef n m (k - 1) - (k + 1 : ℤ) * ycoef n m (k + 1)) / (2 * Complex.I)) + m * hcoef n m k =
      (n * (n + 1) : ℂ) * ((ycoef n m (k - 1) - ycoef n m (k + 1)) / (2 * Complex.I)) := by
  have h := congrArg (fun f : Trig => f.coeff k) (theta_ode_div n m.natAbs)
  have e : ((n : Trig) * (n + 1)) * (ls * Theta n m.natAbs) = ((n * (n + 1) : ℕ) : Trig) * (ls * Theta n m.natAbs) := by push_cast; ring
  rw [e] at h
  simp only [AddMonoidAlgebra.coeff_add, Finsupp.add_apply, coeff_del, coeff_ls_mul, coeff_natCast_mul] at h
  have hI : (Complex.I) ≠ 0 := Complex.I_ne_zero
  have hs : (m.sign : ℂ) * (m : ℂ) = (m.natAbs : ℂ) := by
    have := congrArg (fun x : ℤ => (x : ℂ)) (Int.sign_mul_self_eq_natAbs m)
    simpa only [Int.cast_mul, Int.cast_natCast] using this
  unfold hcoef ycoef
  have hinv : ∀ x : ℂ, x / (2 * Complex.I) = -Complex.I / 2 * x := by
    intro x; field_simp; linear_combination x * Complex.I_sq
  rw [hinv, hinv]
  push_cast at h ⊢
  linear_combination ((normSH n m.natAbs : ℂ) * Complex.I ^ m.natAbs) * h + ((normSH n m.natAbs : ℂ) * Complex.I ^ m.natAbs * (Hth n m.natAbs).coeff k) * hs

/-- Fourier coefficients of `m f_m / sin θ`, `f_m` the order-`m` part of a sum of harmonics. -/
noncomputable def Hval (v : ℤ → ℕ → ℂ) (nmax : ℕ) (m k : ℤ) : ℂ :=
  Complex.I ^ m * ∑ n ∈ Icc m.natAbs nmax, v m n * hcoef n m k

theorem Hval_support (v : ℤ → ℕ → ℂ) (nmax : ℕ) (m k : ℤ) (h : (nmax : ℤ) ≤ |k|) : Hval v nmax m k = 0 := by
  unfold Hval
  rw [sum_eq_zero, mul_zero]
  intro n hn
  have := mem_Icc.mp hn
  rw [hcoef_support n m k (by omega), mul_zero]

theorem neg_one_natAbs (m : ℤ) : ((-1 : ℂ)) ^ m.natAbs = (-1) ^ m := by
  rcases Int.natAbs_eq m with h | h
  · conv_rhs => rw [h]
    rw [zpow_natCast]
  · conv_rhs => rw [h]
    rw [zpow_neg, zpow_natCast, ← inv_pow, inv_neg, inv_one]

theorem Hval_symm (v : ℤ → ℕ → ℂ) (nmax : ℕ) (m k : ℤ) : Hval v nmax m (-k) = -((-1) ^ m * Hval v nmax m k) := by
  unfold Hval
  rw [mul_sum, mul_sum, mul_sum, ← sum_neg_distrib]
  refine sum_congr rfl fun n _ => ?_
  rw [hcoef_symm, neg_one_natAbs]; ring

theorem Hval_sin (v : ℤ → ℕ → ℂ) (nmax : ℕ) (m k : ℤ) :
    (Hval v nmax m (k - 1) - Hval v nmax m (k + 1)) / (2 * Complex.I) = m * Gval v nmax m k := by
  unfold Hval Gval
  simp only [mul_sum, ← sum_sub_distrib, sum_div]
  refine sum_congr rfl fun n _ => ?_
  linear_combination (Complex.I ^ m * v m n) * hcoef_sin n m k

theorem Hval_zero (v : ℤ → ℕ → ℂ) (nmax : ℕ) (k : ℤ) : Hval v nmax 0 k = 0 := by
  unfold Hval hcoef
  simp

/-- `-sin θ` times the Laplacian, on the Fourier side. -/
theorem Gval_laplace (v : ℤ → ℕ → ℂ) (nmax : ℕ) (m k : ℤ) :
    m * Hval v nmax m k + k * (((k - 1 : ℤ) * Gval v nmax m (k - 1) - (k + 1 : ℤ) * Gval v nmax m (k + 1)) / (2 * Complex.I)) =
      (Gval (fun m n => (n * (n + 1) : ℂ) * v m n) nmax m (k - 1) - Gval (fun m n => (n * (n + 1) : ℂ) * v m n) nmax m (k + 1)) / (2 * Complex.I) := by
  unfold Hval Gval
  simp only [mul_sum, ← sum_sub_distrib, sum_div, ← sum_add_distrib]
  refine sum_congr rfl fun n _ => ?_
  have := ycoef_ode n m k
  linear_combination (Complex.I ^ m * v m n) * this

end Verif
