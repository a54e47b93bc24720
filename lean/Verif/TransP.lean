import Verif.TransI
import Verif.Props.Patterns
import Verif.Props.Harmonics
/-!
# Analysis as projection, synthesis and analysis are inverse
-/
namespace Verif
open Finset Verif.Props

theorem sum_Ioo_shift (M : ℕ) (F : ℤ → ℂ) (s : ℤ) (hs : |s| ≤ 1) (h0 : ∀ ν : ℤ, (M : ℤ) ≤ |ν| → F ν = 0) :
    ∑ ν ∈ Ioo (-((M + 1 : ℕ) : ℤ)) (M + 1 : ℕ), F (ν + s) = ∑ ν ∈ Ioo (-(M : ℤ)) M, F ν := by
  rw [abs_le] at hs
  have h1 : ∑ ν ∈ Ioo (-((M + 1 : ℕ) : ℤ)) (M + 1 : ℕ), F (ν + s) = ∑ ν ∈ Ioo (-((M + 1 : ℕ) : ℤ) + s) ((M + 1 : ℕ) + s), F ν := by
    refine sum_nbij' (fun ν => ν + s) (fun ν => ν - s) ?_ ?_ ?_ ?_ ?_
    · intro ν hν; rw [mem_Ioo] at *; omega
    · intro ν hν; rw [mem_Ioo] at *; omega
    · intro ν _; ring
    · intro ν _; ring
    · intro ν _; rfl
  rw [h1]
  symm
  refine sum_subset ?_ ?_
  · intro ν hν; rw [mem_Ioo] at *; push_cast; omega
  · intro ν _ hν
    apply h0
    rw [mem_Ioo, not_and_or] at hν
    rw [le_abs]; omega

/-- Multiplication by `sin θ` on the Fourier side. -/
theorem trigSum_sin (M : ℕ) (f : ℤ → ℂ) (h0 : ∀ ν : ℤ, (M : ℤ) ≤ |ν| → f ν = 0) (θ : ℝ) :
    trigSum (M + 1) (fun ν => (f (ν - 1) - f (ν + 1)) / (2 * Complex.I)) θ = Real.sin θ * trigSum M f θ := by
  unfold trigSum
  have hI : (2 * Complex.I) ≠ 0 := mul_ne_zero two_ne_zero Complex.I_ne_zero
  have e1 := sum_Ioo_shift M (fun ν => f ν * Complex.exp (((ν + 1 : ℤ) : ℂ) * (θ * Complex.I))) (-1) (by simp)
    (fun ν h => by simp [h0 ν h])
  have e2 := sum_Ioo_shift M (fun ν => f ν * Complex.exp (((ν - 1 : ℤ) : ℂ) * (θ * Complex.I))) 1 (by simp)
    (fun ν h => by simp [h0 ν h])
  have e3 : ∀ ν ∈ Ioo (-((M + 1 : ℕ) : ℤ)) (M + 1 : ℕ), (f (ν - 1) - f (ν + 1)) / (2 * Complex.I) * Complex.exp (ν * (θ * Complex.I)) =
      (f (ν + -1) * Complex.exp (((ν + -1 + 1 : ℤ) : ℂ) * (θ * Complex.I)) - f (ν + 1) * Complex.exp (((ν + 1 - 1 : ℤ) : ℂ) * (θ * Complex.I))) / (2 * Complex.I) := by
    intro ν _
    rw [show ν + -1 + 1 = ν by ring, show ν + 1 - 1 = ν by ring, show ν + -1 = ν - 1 by ring]
    ring
  rw [sum_congr rfl e3, ← sum_div, sum_sub_distrib, e1, e2, ← sum_sub_distrib, sum_div, mul_sum]
  refine sum_congr rfl fun ν _ => ?_
  rw [show ((ν + 1 : ℤ) : ℂ) * (θ * Complex.I) = ν * (θ * Complex.I) + θ * Complex.I by push_cast; ring,
    show ((ν - 1 : ℤ) : ℂ) * (θ * Complex.I) = ν * (θ * Complex.I) + -(θ * Complex.I) by push_cast; ring,
    Complex.exp_add, Complex.exp_add, Complex.ofReal_sin, Complex.sin]
  rw [show (-(θ : ℂ) * Complex.I) = -(θ * Complex.I) by ring, div_eq_iff hI]
  linear_combination (-(f ν * Complex.exp (ν * (θ * Complex.I)) * (Complex.exp (-(θ * Complex.I)) - Complex.exp (θ * Complex.I)))) * Complex.I_sq

/-- Symmetric double-sphere data has Fourier coefficients with `f_{-ν,m} = s (-1)^m f_{ν,m}`. -/
theorem dsym_dftc (D : Arr2 ℂ) (s : ℂ) (h : DSym s D) (hC : D.cols % 2 = 0) (ν m : ℤ) :
    dftc D (-ν) m = s * (-1) ^ m * dftc D ν m := by
  by_cases hC0 : D.cols = 0
  · unfold dftc; simp [hC0]
  unfold dftc
  rw [mul_div_assoc']
  congr 1
  rw [mul_sum]
  refine sum_nbij' (fun i => (D.rows - i) % D.rows) (fun i => (D.rows - i) % D.rows) ?_ ?_ ?_ ?_ ?_
  · intro i hi; rw [mem_range] at *; exact Nat.mod_lt _ (by omega)
  · intro i hi; rw [mem_range] at *; exact Nat.mod_lt _ (by omega)
  · intro i hi; exact refl_row (mem_range.mp hi)
  · intro i hi; exact refl_row (mem_range.mp hi)
  · intro i hi
    rw [mul_sum]
    refine sum_nbij' (fun j => (j + D.cols / 2) % D.cols) (fun j => (j + D.cols / 2) % D.cols) ?_ ?_ ?_ ?_ ?_
    · intro j hj; rw [mem_range] at *; exact Nat.mod_lt _ (by omega)
    · intro j hj; rw [mem_range] at *; exact Nat.mod_lt _ (by omega)
    · intro j hj; exact refl_col (mem_range.mp hj) hC
    · intro j hj; exact refl_col (mem_range.mp hj) hC
    · intro j hj
      rw [mem_range] at hi hj
      rw [h i j hi hj]
      have e1 : root D.rows (-((((D.rows - i) % D.rows : ℕ) : ℤ) * ν)) = root D.rows (-((i : ℤ) * -ν)) := by
        have := root_mul_emod D.rows ν ((D.rows : ℤ) - i)
        rw [mul_comm ν, mul_comm ν] at this
        rw [Int.natCast_mod, Nat.cast_sub hi.le, this, show -(((D.rows : ℤ) - i) * ν) = -((i : ℤ) * -ν) + D.rows * (-ν) by ring, root_add_mul]
      have e2 : root D.cols (-((((j + D.cols / 2) % D.cols : ℕ) : ℤ) * m)) = (-1) ^ m * root D.cols (-((j : ℤ) * m)) := by
        have := root_mul_emod D.cols m ((j : ℤ) + (D.cols / 2 : ℕ))
        rw [mul_comm m, mul_comm m] at this
        rw [Int.natCast_mod, Nat.cast_add, this,
          show -(((j : ℤ) + (D.cols / 2 : ℕ)) * m) = -((D.cols / 2 : ℕ) : ℤ) * m + -(j * m) by ring, root_add, root_mul]
        congr 2
        unfold root
        have hc' : ((D.cols / 2 : ℕ) : ℂ) ≠ 0 := by
          have : D.cols / 2 ≠ 0 := by omega
          exact_mod_cast this
        have hc2 : (D.cols : ℂ) = 2 * ((D.cols / 2 : ℕ) : ℂ) := by
          have : D.cols = 2 * (D.cols / 2) := by omega
          exact_mod_cast this
        generalize D.cols / 2 = H at *
        rw [hc2, show (2 * (Real.pi : ℂ) * Complex.I * ((-(H : ℤ) : ℤ) : ℂ) / (2 * (H : ℂ))) = -(Real.pi * Complex.I) by
          push_cast; field_simp, Complex.exp_neg, Complex.exp_pi_mul_I]
        norm_num
      rw [e1, e2]
      have hss : s * (-1) ^ m * (D.at' ((D.rows - i) % D.rows) ((j + D.cols / 2) % D.cols) * root D.rows (-((i : ℤ) * -ν)) * ((-1) ^ m * root D.cols (-((j : ℤ) * m)))) =
        (s * D.at' ((D.rows - i) % D.rows) ((j + D.cols / 2) % D.cols) * root D.rows (-((i : ℤ) * -ν)) * root D.cols (-((j : ℤ) * m))) * ((-1) ^ m * (-1) ^ m) := by ring
      rw [hss, neg_one_zpow_mul_self, mul_one]

theorem fhat_symm (D : Arr2 ℂ) (s : ℂ) (h : DSym s D) (hC : D.cols % 2 = 0) (ν m : ℤ) :
    fhat D m (-ν) = s * (-1) ^ m * fhat D m ν := by
  unfold fhat
  rw [abs_neg]
  split
  · exact dsym_dftc D s h hC ν m
  · simp

theorem sing_symm (D : Arr2 ℂ) (h : DSym 1 D) (hC : D.cols % 2 = 0) (ν m : ℤ) :
    sing D m (-ν) = -((-1) ^ m * sing D m ν) := by
  unfold sing
  rw [show -ν - 1 = -(ν + 1) by ring, show -ν + 1 = -(ν - 1) by ring, fhat_symm D 1 h hC, fhat_symm D 1 h hC]
  ring

/-- The analysis sum as an integral, given any symmetric Fourier data. -/
theorem bF_integral (M : ℕ) (f : ℤ → ℂ) (m : ℤ) (n : ℕ) (h0 : ∀ ν : ℤ, (M : ℤ) ≤ |ν| → f ν = 0) (hs : ∀ ν, f (-ν) = (-1) ^ m * f ν) :
    bF (M + 1) (fun ν => (f (ν - 1) - f (ν + 1)) / (2 * Complex.I)) m n =
      2 * Real.pi * ∫ θ in (0 : ℝ)..Real.pi, trigSum M f θ * (thetaPart n m θ : ℂ) * Real.sin θ := by
  unfold bF
  rw [proj_integral]
  · congr 1
    refine intervalIntegral.integral_congr fun θ _ => ?_
    rw [trigSum_sin M f h0]
    ring
  · intro ν _
    rw [show -ν - 1 = -(ν + 1) by ring, show -ν + 1 = -(ν - 1) by ring, hs, hs]
    ring

theorem spht_integral (D : Arr2 ℂ) (h : DSym 1 D) (hC : D.cols % 2 = 0) (m : ℤ) (n : ℕ) :
    bF (D.rows / 2 + 1) (sing D m) m n =
      2 * Real.pi * ∫ θ in (0 : ℝ)..Real.pi, trigSum (D.rows / 2) (fhat D m) θ * (thetaPart n m θ : ℂ) * Real.sin θ :=
  bF_integral (D.rows / 2) (fhat D m) m n (fun ν hν => fhat_outer D m ν hν) (fun ν => by rw [fhat_symm D 1 h hC, one_mul])

theorem continuous_thetaPart (n : ℕ) (m : ℤ) : Continuous fun θ : ℝ => thetaPart n m θ := by
  unfold thetaPart
  have := (Polynomial.derivative^[m.natAbs] (legendre n)).continuous
  fun_prop

/-- Analysis of synthesised Fourier data. -/
theorem bF_synth (M nmax : ℕ) (v : ℤ → ℕ → ℂ) (m : ℤ) (n : ℕ) (hM : nmax < M) (h1 : m.natAbs ≤ n) (h2 : n ≤ nmax) :
    bF (M + 1) (fun ν => (Gval v nmax m (ν - 1) - Gval v nmax m (ν + 1)) / (2 * Complex.I)) m n = v m n := by
  rw [bF_integral M (Gval v nmax m) m n (fun ν hν => Gval_support _ _ _ _ (by omega)) (fun ν => Gval_symm _ _ _ _)]
  have e : ∀ θ : ℝ, trigSum M (Gval v nmax m) θ * (thetaPart n m θ : ℂ) * Real.sin θ =
      ∑ k ∈ Icc m.natAbs nmax, v m k * ((thetaPart k m θ * thetaPart n m θ * Real.sin θ : ℝ) : ℂ) := by
    intro θ
    unfold trigSum
    rw [Gval_sum v nmax m θ _ (by
      intro k hk
      rw [mem_Ioo, not_and_or] at hk
      rw [lt_abs]; omega), sum_mul, sum_mul]
    refine sum_congr rfl fun k _ => ?_
    push_cast; ring
  simp only [e]
  rw [intervalIntegral.integral_finsetSum]
  · have hpi : (Real.pi : ℂ) ≠ 0 := by exact_mod_cast Real.pi_ne_zero
    have e2 : ∀ k ∈ Icc m.natAbs nmax, (∫ θ in (0 : ℝ)..Real.pi, v m k * ((thetaPart k m θ * thetaPart n m θ * Real.sin θ : ℝ) : ℂ)) =
        if k = n then v m k * (1 / (2 * Real.pi)) else 0 := by
      intro k hk
      rw [intervalIntegral.integral_const_mul, intervalIntegral.integral_ofReal, thetaPart_ortho k n m (mem_Icc.mp hk).1 h1]
      split <;> simp
    rw [sum_congr rfl e2, sum_ite_eq', if_pos (mem_Icc.mpr ⟨h1, h2⟩)]
    field_simp
  · intro k _
    apply Continuous.intervalIntegrable
    have := continuous_thetaPart k m
    have := continuous_thetaPart n m
    fun_prop

end Verif
