import Verif.Math.Legendre
import Verif.Math.Trig
import Mathlib.Algebra.Polynomial.Monic
import Mathlib.Tactic.ComputeDegree
/-!
# The functions `sin^m θ · (D^m P_n)(cos θ)` as trigonometric polynomials
-/
namespace Verif
open LaurentPolynomial Polynomial

namespace Trig

/-- `sin^m θ · (D^m P_n)(cos θ)`. -/
noncomputable def Theta (n m : ℕ) : Trig := ls ^ m * aeval lc (legD n m)

theorem ls_del_ls_pow (m : ℕ) : ls * del (ls ^ m) = -((m : Trig) * li * lc * ls ^ m) := by
  cases m with
  | zero =>
    have : del (1 : Trig) = 0 := by simpa using del_C 1
    simp [this]
  | succ m => rw [del_pow_succ, del_ls]; push_cast; ring

theorem aeval_C_real (r : ℝ) : aeval lc (Polynomial.C r) = (LaurentPolynomial.C (r : ℂ) : Trig) := by
  rw [aeval_C]; rfl

/-- The associated Legendre equation in `θ`: `(sin θ d/dθ)² Θ + (n(n+1) sin²θ - m²) Θ = 0`. -/
theorem theta_ode (n m : ℕ) : ls * del (ls * del (Theta n m)) =
    (((n : Trig) * (n + 1)) * ls ^ 2 - (m : Trig) ^ 2) * Theta n m := by
  have hode := congrArg (aeval lc) (legD_ode n m)
  simp only [map_add, map_sub, map_mul, map_one, map_zero, map_pow, aeval_X, map_natCast, map_ofNat] at hode
  set Q := aeval lc (legD n m) with hQ
  set Q1 := aeval lc (legD n (m + 1)) with hQ1
  set Q2 := aeval lc (legD n (m + 2)) with hQ2
  have d0 : del Q = Q1 * (li * ls) := by rw [hQ, del_aeval_lc, derivative_legD]
  have d1 : del Q1 = Q2 * (li * ls) := by rw [hQ1, del_aeval_lc, derivative_legD]
  have e1 : ls * del (Theta n m) = ls ^ m * (li * ls ^ 2 * Q1 - (m : Trig) * li * lc * Q) := by
    unfold Theta
    rw [del_mul, d0]
    linear_combination Q * ls_del_ls_pow m
  have dli : del li = 0 := del_C _
  have dm : del (m : Trig) = 0 := by
    have := del_C (m : ℂ)
    rwa [map_natCast] at this
  have d2 : del (li * ls ^ 2 * Q1 - (m : Trig) * li * lc * Q) =
      li * (2 * ls * (-(li * lc))) * Q1 + li * ls ^ 2 * (Q2 * (li * ls)) -
      ((m : Trig) * li * (li * ls) * Q + (m : Trig) * li * lc * (Q1 * (li * ls))) := by
    rw [sub_eq_add_neg, show -((m : Trig) * li * lc * Q) = LaurentPolynomial.C (-1) * ((m : Trig) * li * lc * Q) by
      rw [map_neg, map_one]; ring, del_add, del_mul, del_mul, del_mul, del_C, del_mul, del_mul, del_mul, dm, dli,
      d0, d1, del_lc, sq, del_mul, del_ls, map_neg, map_one]
    ring
  rw [e1, del_mul, d2]
  have hl := ls_del_ls_pow m
  unfold Theta
  rw [← hQ]
  have hcs := lc_sq_add_ls_sq
  linear_combination (li * ls ^ 2 * Q1 - (m : Trig) * li * lc * Q) * hl
    - ls ^ m * ls ^ 2 * hode + (ls^m * ((ls^2) ^2*Q2 - 2*((m : Trig) +1)*ls^2*lc*Q1 - (m:Trig) * ls^2*Q + (m:Trig)^2 * lc^2*Q)) * li_sq
    + (ls^m * (-(ls^2)*Q2 - (m:Trig)^2*Q)) * hcs

theorem coeff_ls_mul (f : Trig) (k : ℤ) :
    (ls * f).coeff k = -Complex.I / 2 * f.coeff (k - 1) + Complex.I / 2 * f.coeff (k + 1) := by
  unfold ls
  rw [mul_comm, mul_add, AddMonoidAlgebra.coeff_add, Finsupp.add_apply, coeff_mul_CT, coeff_mul_CT, sub_neg_eq_add]
  ring

theorem coeff_C_mul (f : Trig) (a : ℂ) (k : ℤ) : (LaurentPolynomial.C a * f).coeff k = a * f.coeff k := by
  have := coeff_mul_CT f a 0 k
  rw [T_zero, mul_one, sub_zero] at this
  rw [mul_comm, this, mul_comm]

/-- Three-term recurrence of the Fourier coefficients, `B(v) = n(n+1) - v(v+1) = (n-v)(n+v+1)`. -/
theorem theta_rec (n m : ℕ) (k : ℤ) :
    (((n : ℂ) - k) * (n + k + 1)) * (Theta n m).coeff k =
      (((n : ℂ) - k - 1) * (n + k + 2) + (((n : ℂ) - k - 2) * (n + k + 3) - 4 * (m : ℂ) ^ 2)) *
          (Theta n m).coeff (k + 2)
        - ((n : ℂ) - k - 3) * (n + k + 4) * (Theta n m).coeff (k + 4) := by
  have h := congrArg (fun f : Trig => f.coeff (k + 2)) (theta_ode n m)
  have e : (((n : Trig) * (n + 1)) * ls ^ 2 - (m : Trig) ^ 2) * Theta n m =
      ls * (ls * (LaurentPolynomial.C ((n : ℂ) * (n + 1)) * Theta n m)) +
        LaurentPolynomial.C (-(m : ℂ) ^ 2) * Theta n m := by
    simp only [map_mul, map_neg, map_pow, map_add, map_natCast, map_one]; ring
  rw [e] at h
  simp only [AddMonoidAlgebra.coeff_add, Finsupp.add_apply, coeff_ls_mul, coeff_C_mul, coeff_del] at h
  rw [show k + 2 - 1 - 1 = k by ring, show k + 2 - 1 + 1 = k + 2 by ring, show k + 2 + 1 - 1 = k + 2 by ring,
    show k + 2 + 1 + 1 = k + 4 by ring] at h
  generalize (Theta n m).coeff k = a0 at *
  generalize (Theta n m).coeff (k + 2) = a2 at *
  generalize (Theta n m).coeff (k + 4) = a4 at *
  push_cast at h
  have hI : Complex.I ^ 2 = -1 := Complex.I_sq
  linear_combination (4 : ℂ) * h + (-(k+1)*k*a0 + (k+1)*(k+2)*a2 + (k+3)*(k+2)*a2 - (k+3)*(k+4)*a4
    + n*(n+1)*(a0 - 2*a2 + a4)) * hI

theorem coeff_invert (f : Trig) (k : ℤ) : (invert f).coeff k = f.coeff (-k) := by
  induction f using LaurentPolynomial.induction_on' with
  | add p q hp hq => simp only [map_add, AddMonoidAlgebra.coeff_add, Finsupp.add_apply, hp, hq]
  | C_mul_T n a =>
    rw [map_mul, invert_C, invert_T, coeff_CT, coeff_CT]
    by_cases h : -n = k
    · rw [if_pos h, if_pos (by omega)]
    · rw [if_neg h, if_neg (by omega)]

theorem theta_symm (n m : ℕ) (k : ℤ) : (Theta n m).coeff (-k) = (-1) ^ m * (Theta n m).coeff k := by
  have h : invert (Theta n m) = LaurentPolynomial.C ((-1) ^ m) * Theta n m := by
    unfold Theta
    rw [map_mul, map_pow, invert_ls, invert_aeval_lc, map_pow, map_neg, map_one, neg_pow]; ring
  rw [← coeff_invert, h, coeff_C_mul]

theorem rodU_monic (n : ℕ) : (rodU n).Monic := by
  unfold rodU
  exact Monic.pow (by monicity!) n

theorem rodU_natDegree (n : ℕ) : (rodU n).natDegree = 2 * n := by
  unfold rodU
  rw [Monic.natDegree_pow (by monicity!)]
  have : (X ^ 2 - 1 : ℝ[X]).natDegree = 2 := by compute_degree!
  rw [this]; ring

theorem legD_natDegree (n m : ℕ) : (legD n m).natDegree ≤ n - m := by
  unfold legD legendre
  rw [iterate_derivative_C_mul, ← Function.iterate_add_apply]
  refine (natDegree_C_mul_le _ _).trans ?_
  refine (natDegree_iterate_derivative _ _).trans ?_
  rw [rodU_natDegree]; omega

theorem legD_eq_zero (n m : ℕ) (h : n < m) : legD n m = 0 := by
  unfold legD legendre
  rw [iterate_derivative_C_mul, ← Function.iterate_add_apply,
    iterate_derivative_eq_zero (by rw [rodU_natDegree]; omega), mul_zero]

theorem legD_lead (n m : ℕ) (h : m ≤ n) : (legD n m).coeff (n - m) =
    (2 * n).factorial / (2 ^ n * n.factorial * (n - m).factorial) := by
  unfold legD legendre
  rw [iterate_derivative_C_mul, ← Function.iterate_add_apply, Polynomial.coeff_C_mul, coeff_iterate_derivative]
  have hc : (rodU n).coeff (2 * n) = 1 := by
    have := (rodU_monic n).coeff_natDegree
    rwa [rodU_natDegree] at this
  rw [show n - m + (m + n) = 2 * n by omega, hc, nsmul_eq_mul, mul_one]
  have hd : ((n - m).factorial : ℝ) * ((2 * n).descFactorial (m + n) : ℝ) = (2 * n).factorial := by
    have := Nat.factorial_mul_descFactorial (show m + n ≤ 2 * n by omega)
    rw [show 2 * n - (m + n) = n - m by omega] at this
    exact_mod_cast this
  have : ((n - m).factorial : ℝ) ≠ 0 := by exact_mod_cast (Nat.factorial_pos _).ne'
  have : (n.factorial : ℝ) ≠ 0 := by exact_mod_cast (Nat.factorial_pos _).ne'
  rw [← hd]
  field_simp

/-- Degree `n` and leading coefficient. -/
theorem theta_lead (n m : ℕ) (h : m ≤ n) : Lead (Theta n m) n
    (((2 * n).factorial / (4 ^ n * n.factorial * (n - m).factorial) : ℝ) * (-Complex.I) ^ m) := by
  have h1 := (lead_aeval_lc (legD n m) (n - m) (legD_natDegree n m)).mul_ls_pow m
  rw [show ((n - m : ℕ) : ℤ) + (m : ℤ) = n by omega, mul_comm] at h1
  have : Theta n m = ls ^ m * aeval lc (legD n m) := rfl
  rw [this]
  convert h1 using 1
  rw [legD_lead n m h]
  push_cast
  rw [div_pow (1 : ℂ), show (4 : ℂ) ^ n = 2 ^ n * (2 ^ m * 2 ^ (n - m)) by
    rw [← pow_add, show m + (n - m) = n by omega, ← mul_pow]; norm_num]
  have : ((n - m).factorial : ℂ) ≠ 0 := by exact_mod_cast (Nat.factorial_pos _).ne'
  have : (n.factorial : ℂ) ≠ 0 := by exact_mod_cast (Nat.factorial_pos _).ne'
  rw [one_pow, div_pow]
  field_simp

/-- The coefficients vanish outside `[-n, n]`. -/
theorem theta_support (n m : ℕ) (k : ℤ) (hk : (n : ℤ) < |k|) : (Theta n m).coeff k = 0 := by
  by_cases h : m ≤ n
  · rcases abs_choice k with e | e
    · exact (theta_lead n m h).1 k (by omega)
    · rw [show k = -(-k) by ring, theta_symm, (theta_lead n m h).1 (-k) (by omega), mul_zero]
  · unfold Theta
    rw [legD_eq_zero n m (by omega)]; simp

/-- Coefficients of the wrong parity vanish. -/
theorem theta_parity (n m : ℕ) (k : ℤ) (hk : (n - k) % 2 = 1) : (Theta n m).coeff k = 0 := by
  have key : ∀ j : ℕ, ∀ k : ℤ, k = n + 1 - 2 * j → 0 ≤ k + 1 →
      (Theta n m).coeff k = 0 ∧ (Theta n m).coeff (k + 2) = 0 := by
    intro j
    induction j with
    | zero =>
      intro k hk _
      exact ⟨theta_support n m k (by rw [abs_of_nonneg] <;> omega),
        theta_support n m (k + 2) (by rw [abs_of_nonneg] <;> omega)⟩
    | succ j ih =>
      intro k hk h0
      obtain ⟨h1, h2⟩ := ih (k + 2) (by push_cast at hk ⊢; omega) (by omega)
      refine ⟨?_, h1⟩
      have := theta_rec n m k
      rw [h1, show k + 4 = k + 2 + 2 by ring, h2, mul_zero, mul_zero, sub_zero] at this
      by_cases hn : k = -1 ∧ n = 0
      · obtain ⟨rfl, rfl⟩ := hn
        exact theta_support 0 m (-1) (by norm_num)
      rcases mul_eq_zero.mp this with h | h
      · exfalso
        rcases mul_eq_zero.mp h with h | h
        · have : (n : ℤ) - k = 0 := by exact_mod_cast h
          push_cast at hk; omega
        · have : (n : ℤ) + k + 1 = 0 := by exact_mod_cast h
          push_cast at hk; omega
      · exact h
  have pos : ∀ k : ℤ, (n - k) % 2 = 1 → 0 ≤ k → (Theta n m).coeff k = 0 := by
    intro k hk h0
    by_cases h : k ≤ n + 1
    · exact (key ((n + 1 - k) / 2).toNat k (by omega) (by omega)).1
    · exact theta_support n m k (by rw [abs_of_nonneg] <;> omega)
  by_cases h : 0 ≤ k
  · exact pos k hk h
  · rw [show k = -(-k) by ring, theta_symm, pos (-k) (by omega) (by omega), mul_zero]

end Trig
end Verif
