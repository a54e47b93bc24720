import Verif.SphiS
import Verif.Math.Ortho
/-!
# The analysis sum is a projection integral
-/
namespace Verif
open Finset

/-- `Σ_{|ν|<M} g_ν e^{iνθ}`. -/
noncomputable def trigSum (M : ℕ) (g : ℤ → ℂ) (θ : ℝ) : ℂ :=
  ∑ ν ∈ Ioo (-(M : ℤ)) M, g ν * Complex.exp (ν * (θ * Complex.I))

theorem continuous_expI (k : ℤ) : Continuous fun θ : ℝ => Complex.exp (k * (θ * Complex.I)) := by fun_prop

theorem continuous_trigSum (M : ℕ) (g : ℤ → ℂ) : Continuous (trigSum M g) := by
  unfold trigSum; fun_prop

theorem exp_pi_int (j : ℤ) : Complex.exp (j * (Real.pi * Complex.I)) = (-1) ^ j := by
  rw [Complex.exp_int_mul, Complex.exp_pi_mul_I]

/-- `∫_0^π e^{ijθ} dθ`. -/
theorem integral_expI (j : ℤ) : ∫ θ in (0 : ℝ)..Real.pi, Complex.exp (j * (θ * Complex.I)) =
    (if j = 0 then (Real.pi : ℂ) else 0) + 2 * Skern (-j) := by
  by_cases hj : j = 0
  · subst hj; simp [Skern]
  · have hj' : (j : ℂ) ≠ 0 := by exact_mod_cast hj
    have e : ∀ θ : ℝ, Complex.exp (j * (θ * Complex.I)) = Complex.exp ((j * Complex.I) * θ) := fun θ => by
      congr 1; ring
    simp only [e]
    rw [integral_exp_mul_complex (mul_ne_zero hj' Complex.I_ne_zero), if_neg hj, zero_add]
    rw [show (j : ℂ) * Complex.I * (Real.pi : ℝ) = j * (Real.pi * Complex.I) by ring, exp_pi_int]
    simp only [Complex.ofReal_zero, mul_zero, Complex.exp_zero]
    unfold Skern
    rcases Int.emod_two_eq_zero_or_one j with h | h
    · rw [if_neg (by omega), (Int.even_iff.mpr h).neg_one_zpow]; simp
    · rw [if_pos (by omega), (Int.odd_iff.mpr h).neg_one_zpow]
      push_cast
      have hI := Complex.I_sq
      field_simp
      linear_combination (-2 : ℂ) * hI

theorem neg_one_zpow_natAbs (m : ℤ) : ((-1 : ℂ)) ^ m.natAbs = (-1) ^ m := by
  rcases Int.natAbs_eq m with h | h
  · conv_rhs => rw [h]
    rw [zpow_natCast]
  · conv_rhs => rw [h]
    rw [zpow_neg, zpow_natCast, ← inv_pow, inv_neg, inv_one]

theorem neg_one_zpow_mul_self (m : ℤ) : ((-1 : ℂ)) ^ m * (-1) ^ m = 1 := by
  rw [← mul_zpow]; simp

theorem sum_Ioo_neg (M : ℕ) (f : ℤ → ℂ) : ∑ ν ∈ Ioo (-(M : ℤ)) M, f (-ν) = ∑ ν ∈ Ioo (-(M : ℤ)) M, f ν := by
  refine sum_bij' (fun ν _ => -ν) (fun ν _ => -ν) ?_ ?_ ?_ ?_ ?_
  · intro a ha; simp only [mem_Ioo] at *; omega
  · intro a ha; simp only [mem_Ioo] at *; omega
  · intro a _; exact neg_neg a
  · intro a _; exact neg_neg a
  · intro a _; rfl

/-- A symmetric sum over `-n..n`, folded. -/
theorem sum_fold (n : ℕ) (f : ℤ → ℂ) (h : ∀ k, f (-k) = f k) :
    ∑ k ∈ Icc (-(n : ℤ)) n, f k = f 0 + 2 * ∑ k ∈ range n, f (k + 1 : ℕ) := by
  induction n with
  | zero => simp
  | succ n ih =>
    have e : Icc (-((n + 1 : ℕ) : ℤ)) (n + 1 : ℕ) = insert (-((n + 1 : ℕ) : ℤ)) (insert ((n + 1 : ℕ) : ℤ) (Icc (-(n : ℤ)) n)) := by
      ext x; simp only [mem_insert, mem_Icc]; omega
    rw [e, sum_insert (by simp only [mem_insert, mem_Icc]; omega), sum_insert (by simp only [mem_Icc]; omega), ih,
      sum_range_succ, h]
    ring

theorem Skern_neg (j : ℤ) : Skern (-j) = - Skern j := by
  unfold Skern
  rcases Int.emod_two_eq_zero_or_one j with h | h
  · rw [if_neg (by omega), if_neg (by omega), neg_zero]
  · rw [if_pos (by omega), if_pos (by omega)]
    push_cast; rw [div_neg]

/-- **Projection.** For Fourier data with the (anti)symmetry of `sin θ · f`, the analysis sum is the integral of the
trigonometric polynomial against the θ-part of the harmonic. -/
theorem proj_integral (M : ℕ) (g : ℤ → ℂ) (m : ℤ) (n : ℕ)
    (hg : ∀ ν, ν ∈ Ioo (-(M : ℤ)) M → g (-ν) = -((-1) ^ m * g ν)) :
    Complex.I ^ (-m) * ((4 * Real.pi * ∑ ν ∈ Ioo (-(M : ℤ)) M, g ν * Skern (0 - ν)) * ycoef n m 0 +
      2 * ∑ k ∈ range n, (4 * Real.pi * ∑ ν ∈ Ioo (-(M : ℤ)) M, g ν * Skern (((k + 1 : ℕ) : ℤ) - ν)) * ycoef n m (k + 1 : ℕ)) =
    2 * Real.pi * ∫ θ in (0 : ℝ)..Real.pi, trigSum M g θ * (thetaPart n m θ : ℂ) := by
  -- the right-hand side as a double sum
  have hR : ∫ θ in (0 : ℝ)..Real.pi, trigSum M g θ * (thetaPart n m θ : ℂ) =
      ∑ ν ∈ Ioo (-(M : ℤ)) M, ∑ k ∈ Icc (-(n : ℤ)) n, g ν * (Complex.I ^ m * ycoef n m k) *
        ((if ν + k = 0 then (Real.pi : ℂ) else 0) + 2 * Skern (-(ν + k))) := by
    have e : ∀ θ : ℝ, trigSum M g θ * (thetaPart n m θ : ℂ) =
        ∑ ν ∈ Ioo (-(M : ℤ)) M, ∑ k ∈ Icc (-(n : ℤ)) n, g ν * (Complex.I ^ m * ycoef n m k) *
          Complex.exp ((ν + k : ℤ) * (θ * Complex.I)) := by
      intro θ
      rw [thetaPart_eq_sum n m θ (Icc (-(n : ℤ)) n) (fun k hk => by
        rw [mem_Icc] at hk; by_contra hc; exact hk (abs_le.mp (not_lt.mp hc)))]
      unfold trigSum
      rw [mul_sum, sum_mul_sum]
      refine sum_congr rfl fun ν _ => sum_congr rfl fun k _ => ?_
      rw [show (((ν + k : ℤ) : ℂ)) * (θ * Complex.I) = ν * (θ * Complex.I) + k * (θ * Complex.I) by push_cast; ring,
        Complex.exp_add]
      ring
    simp only [e]
    rw [intervalIntegral.integral_finsetSum (fun ν _ => by
      apply Continuous.intervalIntegrable; fun_prop)]
    refine sum_congr rfl fun ν _ => ?_
    rw [intervalIntegral.integral_finsetSum (fun k _ => by
      apply Continuous.intervalIntegrable; fun_prop)]
    refine sum_congr rfl fun k _ => ?_
    rw [intervalIntegral.integral_const_mul, integral_expI]
  -- split
  have hS : ∀ k : ℤ, (∑ ν ∈ Ioo (-(M : ℤ)) M, g ν * Skern (-k - ν)) = (-1) ^ m * ∑ ν ∈ Ioo (-(M : ℤ)) M, g ν * Skern (k - ν) := by
    intro k
    rw [← sum_Ioo_neg, mul_sum]
    refine sum_congr rfl fun ν hν => ?_
    rw [hg ν hν, show -k - -ν = -(k - ν) by ring, Skern_neg]
    ring
  have hdiag : ∑ ν ∈ Ioo (-(M : ℤ)) M, ∑ k ∈ Icc (-(n : ℤ)) n, g ν * (Complex.I ^ m * ycoef n m k) *
      (if ν + k = 0 then (Real.pi : ℂ) else 0) = 0 := by
    have e : ∀ ν ∈ Ioo (-(M : ℤ)) M, ∑ k ∈ Icc (-(n : ℤ)) n, g ν * (Complex.I ^ m * ycoef n m k) *
        (if ν + k = 0 then (Real.pi : ℂ) else 0) = g ν * (Complex.I ^ m * ycoef n m (-ν)) * Real.pi := by
      intro ν _
      rw [sum_eq_single (-ν)]
      · rw [if_pos (by ring)]
      · intro b _ hb
        rw [if_neg (by omega), mul_zero]
      · intro h
        rw [ycoef_support n m (-ν) (by
          rw [mem_Icc] at h; by_contra hc; exact h (abs_le.mp (not_lt.mp hc)))]
        simp
    rw [sum_congr rfl e]
    have hanti : ∑ ν ∈ Ioo (-(M : ℤ)) M, g ν * (Complex.I ^ m * ycoef n m (-ν)) * Real.pi =
        - ∑ ν ∈ Ioo (-(M : ℤ)) M, g ν * (Complex.I ^ m * ycoef n m (-ν)) * Real.pi := by
      conv_lhs => rw [← sum_Ioo_neg]
      rw [← sum_neg_distrib]
      refine sum_congr rfl fun ν hν => ?_
      rw [hg ν hν, ycoef_symm n m (-ν), neg_one_zpow_natAbs]
      linear_combination (-(g ν * Complex.I ^ m * ycoef n m (-ν) * Real.pi)) * neg_one_zpow_mul_self m
    exact self_eq_neg.mp hanti
  rw [hR]
  simp only [mul_add, sum_add_distrib]
  rw [hdiag, mul_zero, zero_add, sum_comm]
  have hy : ∀ k ∈ Icc (-(n : ℤ)) n, ∑ ν ∈ Ioo (-(M : ℤ)) M, g ν * (Complex.I ^ m * ycoef n m k) * (2 * Skern (-(ν + k))) =
      2 * Complex.I ^ m * (-1) ^ m * (ycoef n m k * ∑ ν ∈ Ioo (-(M : ℤ)) M, g ν * Skern (k - ν)) := by
    intro k _
    have := hS k
    rw [show 2 * Complex.I ^ m * (-1) ^ m * (ycoef n m k * ∑ ν ∈ Ioo (-(M : ℤ)) M, g ν * Skern (k - ν)) =
      2 * Complex.I ^ m * ycoef n m k * ((-1) ^ m * ∑ ν ∈ Ioo (-(M : ℤ)) M, g ν * Skern (k - ν)) by ring, ← this, mul_sum]
    refine sum_congr rfl fun ν _ => ?_
    rw [show -(ν + k) = -k - ν by ring]; ring
  rw [sum_congr rfl hy, ← mul_sum, sum_fold]
  · have hI : Complex.I ^ (-m) = Complex.I ^ m * (-1) ^ m := by
      rw [zpow_neg, ← inv_zpow, Complex.inv_I, ← mul_zpow, mul_neg, mul_one]
    rw [hI]
    have e3 : ∀ k ∈ range n, (4 * (Real.pi : ℂ) * ∑ ν ∈ Ioo (-(M : ℤ)) M, g ν * Skern (((k + 1 : ℕ) : ℤ) - ν)) * ycoef n m (k + 1 : ℕ) =
        4 * (Real.pi : ℂ) * (ycoef n m (k + 1 : ℕ) * ∑ ν ∈ Ioo (-(M : ℤ)) M, g ν * Skern (((k + 1 : ℕ) : ℤ) - ν)) := by
      intro k _; ring
    rw [sum_congr rfl e3, ← mul_sum]
    ring
  · intro k
    rw [ycoef_symm, hS, neg_one_zpow_natAbs]
    linear_combination (ycoef n m k * ∑ ν ∈ Ioo (-(M : ℤ)) M, g ν * Skern (k - ν)) * neg_one_zpow_mul_self m

theorem bval_integral (A : Arr2 ℂ) (m : ℤ) (n M : ℕ) (hM : A.rows = 2 * M)
    (hg : ∀ ν, ν ∈ Ioo (-(M : ℤ)) M → fAt A m (-ν) = -((-1) ^ m * fAt A m ν)) :
    bval A m n = 2 * Real.pi * ∫ θ in (0 : ℝ)..Real.pi, trigSum M (fAt A m) θ * (thetaPart n m θ : ℂ) := by
  rw [← proj_integral M (fAt A m) m n hg]
  unfold bval hval
  rw [show (A.rows : ℤ) / 2 = M by omega]

end Verif
