import Verif.VecRound
import Mathlib.Analysis.Calculus.Deriv.Add
import Mathlib.Analysis.Calculus.Deriv.Mul
import Mathlib.Analysis.SpecialFunctions.ExpDeriv
/-!
# Fields with given Fourier coefficients: samples, symmetry, derivatives
-/
namespace Verif
open Finset Props

/-- `Σ_m Σ_ν F_m(ν) e^{iνθ} e^{imφ}`. -/
noncomputable def fieldSum (M mmax : ℕ) (F : ℤ → ℤ → ℂ) (θ φ : ℝ) : ℂ :=
  ∑ m ∈ Icc (-(mmax : ℤ)) mmax, trigSum M (F m) θ * Complex.exp (m * (φ * Complex.I))

theorem field_samples (M mmax C : ℕ) (F : ℤ → ℤ → ℂ) (hC : 2 * mmax + 2 ≤ C) (hC2 : C % 2 = 0) (hM : 1 ≤ M)
    (h0 : ∀ m ν : ℤ, (M : ℤ) ≤ |ν| → F m ν = 0) (i j : ℕ) :
    ∑ ν ∈ Ioc (-((2 * M - 1) / 2 : ℕ) - 1 : ℤ) ((2 * M / 2 : ℕ) : ℤ), ∑ m ∈ Ioc (-((C - 1) / 2 : ℕ) - 1 : ℤ) ((C / 2 : ℕ) : ℤ),
        (if |m| ≤ (mmax : ℤ) then F m ν else 0) * root (2 * M) (i * ν) * root C (j * m) =
      fieldSum M mmax F (2 * Real.pi * i / (2 * M : ℕ)) (2 * Real.pi * j / C) := by
  unfold fieldSum trigSum
  rw [sum_comm]
  have e : ∀ m ∈ Ioc (-((C - 1) / 2 : ℕ) - 1 : ℤ) ((C / 2 : ℕ) : ℤ),
      ∑ ν ∈ Ioc (-((2 * M - 1) / 2 : ℕ) - 1 : ℤ) ((2 * M / 2 : ℕ) : ℤ), (if |m| ≤ (mmax : ℤ) then F m ν else 0) * root (2 * M) (i * ν) * root C (j * m) =
      if m ∈ Icc (-(mmax : ℤ)) mmax then
        (∑ ν ∈ Ioo (-(M : ℤ)) M, F m ν * Complex.exp (ν * ((2 * Real.pi * i / (2 * M : ℕ) : ℝ) * Complex.I))) *
          Complex.exp (m * ((2 * Real.pi * j / C : ℝ) * Complex.I)) else 0 := by
    intro m _
    by_cases hm : m ∈ Icc (-(mmax : ℤ)) mmax
    · rw [if_pos hm]
      rw [mem_Icc] at hm
      simp only [if_pos (show |m| ≤ (mmax : ℤ) by rw [abs_le]; omega)]
      rw [← sum_mul, root_exp]
      congr 1
      simp only [root_exp]
      symm
      refine sum_subset (fun ν hν => ?_) fun ν _ hν => ?_
      · rw [mem_Ioo] at hν; rw [mem_Ioc]; omega
      · rw [h0 m ν (by rw [mem_Ioo, not_and_or] at hν; rw [le_abs]; omega), zero_mul]
    · rw [if_neg hm]
      rw [mem_Icc] at hm
      simp only [if_neg (show ¬ |m| ≤ (mmax : ℤ) by rw [abs_le]; omega)]
      simp
  rw [sum_congr rfl e, ← sum_filter]
  refine sum_congr ?_ fun m _ => rfl
  ext m
  rw [mem_filter, mem_Ioc, mem_Icc]; omega

/-- Data sampled from a field with symmetric Fourier coefficients is symmetric. -/
theorem field_dsym (M mmax : ℕ) (F : ℤ → ℤ → ℂ) (s : ℂ) (hs : s * s = 1) (D : Arr2 ℂ) (hr : D.rows = 2 * M) (hM : 1 ≤ M) (hC : D.cols % 2 = 0)
    (hF : ∀ m ν : ℤ, F m (-ν) = s * (-1) ^ m * F m ν)
    (hD : ∀ i j : ℕ, i < D.rows → j < D.cols → D.at' i j = fieldSum M mmax F (2 * Real.pi * i / (2 * M : ℕ)) (2 * Real.pi * j / D.cols)) :
    DSym s D := by
  intro i j hi hj
  rw [hD i j hi hj, hD _ _ (Nat.mod_lt _ (by omega)) (Nat.mod_lt _ (by omega))]
  unfold fieldSum trigSum
  rw [mul_sum]
  refine sum_congr rfl fun m _ => ?_
  simp only [← root_exp]
  have e1 : ∀ ν : ℤ, root (2 * M) ((((D.rows - i) % D.rows : ℕ) : ℤ) * ν) = root (2 * M) (i * -ν) := by
    intro ν
    have h := root_mul_emod (2 * M) (-ν) ((D.rows : ℤ) - i)
    rw [hr] at *
    rw [Int.natCast_mod, Nat.cast_sub hi.le]
    rw [show -(-ν * (((2 * M : ℕ) : ℤ) - i)) = i * -ν + ((2 * M : ℕ) : ℤ) * ν by ring, root_add_mul] at h
    rw [← h]
    congr 1; ring
  have e2 : root D.cols ((((j + D.cols / 2) % D.cols : ℕ) : ℤ) * m) = (-1) ^ m * root D.cols (j * m) := by
    have h := root_mul_emod D.cols (-m) ((j : ℤ) + (D.cols / 2 : ℕ))
    rw [Int.natCast_mod, Nat.cast_add]
    rw [show -(-m * ((j : ℤ) + (D.cols / 2 : ℕ))) = ((D.cols / 2 : ℕ) : ℤ) * m + j * m by ring, root_add, root_mul] at h
    rw [show ((j : ℤ) + (D.cols / 2 : ℕ)) % (D.cols : ℤ) * m = -(-m * (((j : ℤ) + (D.cols / 2 : ℕ)) % (D.cols : ℤ))) by ring, h]
    congr 2
    unfold root
    have hc' : ((D.cols / 2 : ℕ) : ℂ) ≠ 0 := by
      have : D.cols / 2 ≠ 0 := by omega
      exact_mod_cast this
    have hc2 : (D.cols : ℂ) = 2 * ((D.cols / 2 : ℕ) : ℂ) := by
      have : D.cols = 2 * (D.cols / 2) := by omega
      exact_mod_cast this
    generalize D.cols / 2 = H at *
    rw [hc2, show (2 * (Real.pi : ℂ) * Complex.I * ((H : ℤ) : ℂ) / (2 * (H : ℂ))) = (Real.pi * Complex.I) by
      push_cast; field_simp, Complex.exp_pi_mul_I]
  rw [e2]
  simp only [e1]
  rw [← sum_Ioo_neg M fun ν => F m ν * root (2 * M) (i * -ν)]
  simp only [hF, neg_neg]
  have e3 : ∑ x ∈ Ioo (-(M : ℤ)) M, s * (-1) ^ m * F m x * root (2 * M) (i * x) = s * (-1) ^ m * ∑ x ∈ Ioo (-(M : ℤ)) M, F m x * root (2 * M) (i * x) := by
    rw [mul_sum]; exact sum_congr rfl fun _ _ => by ring
  rw [e3]
  have h2 := neg_one_zpow_mul_self m
  linear_combination (-(∑ x ∈ Ioo (-(M : ℤ)) M, F m x * root (2 * M) (i * x)) * root D.cols (j * m)) * h2 -
    ((∑ x ∈ Ioo (-(M : ℤ)) M, F m x * root (2 * M) (i * x)) * root D.cols (j * m) * ((-1) ^ m * (-1) ^ m)) * hs

theorem hasDerivAt_trigSum (M : ℕ) (g : ℤ → ℂ) (θ : ℝ) :
    HasDerivAt (fun θ => trigSum M g θ) (trigSum M (fun ν => Complex.I * (ν * g ν)) θ) θ := by
  unfold trigSum
  refine HasDerivAt.fun_sum fun ν _ => ?_
  have h : HasDerivAt (fun θ : ℝ => (ν : ℂ) * ((θ : ℂ) * Complex.I)) ((ν : ℂ) * (1 * Complex.I)) θ :=
    ((Complex.ofRealCLM.hasDerivAt (x := θ)).mul_const Complex.I).const_mul _
  refine ((h.cexp).const_mul (g ν)).congr_deriv ?_
  ring

theorem hasDerivAt_field_theta (M mmax : ℕ) (F : ℤ → ℤ → ℂ) (θ φ : ℝ) :
    HasDerivAt (fun θ => fieldSum M mmax F θ φ) (fieldSum M mmax (fun m ν => Complex.I * (ν * F m ν)) θ φ) θ := by
  unfold fieldSum
  refine HasDerivAt.fun_sum fun m _ => ?_
  exact (hasDerivAt_trigSum M (F m) θ).mul_const _

theorem hasDerivAt_field_phi (M mmax : ℕ) (F : ℤ → ℤ → ℂ) (θ φ : ℝ) :
    HasDerivAt (fun φ => fieldSum M mmax F θ φ) (fieldSum M mmax (fun m ν => Complex.I * (m * F m ν)) θ φ) φ := by
  unfold fieldSum
  refine HasDerivAt.fun_sum fun m _ => ?_
  have h : HasDerivAt (fun θ : ℝ => (m : ℂ) * ((θ : ℂ) * Complex.I)) ((m : ℂ) * (1 * Complex.I)) φ :=
    ((Complex.ofRealCLM.hasDerivAt (x := φ)).mul_const Complex.I).const_mul _
  refine ((h.cexp).const_mul (trigSum M (F m) θ)).congr_deriv ?_
  unfold trigSum
  rw [sum_mul, sum_mul]
  refine sum_congr rfl fun _ _ => ?_
  ring

theorem continuous_fieldSum (M mmax : ℕ) (F : ℤ → ℤ → ℂ) : Continuous fun x : ℝ × ℝ => fieldSum M mmax F x.1 x.2 := by
  unfold fieldSum trigSum; fun_prop

theorem field_add (M mmax : ℕ) (F G : ℤ → ℤ → ℂ) (a b : ℂ) (θ φ : ℝ) :
    fieldSum M mmax (fun m ν => a * F m ν + b * G m ν) θ φ = a * fieldSum M mmax F θ φ + b * fieldSum M mmax G θ φ := by
  unfold fieldSum trigSum
  simp only [mul_sum, sum_mul, ← sum_add_distrib]
  exact sum_congr rfl fun _ _ => sum_congr rfl fun _ _ => by ring

/-- The potential: `Gval` sums to the spherical harmonic series. -/
theorem field_Gval (M nmax mmax : ℕ) (hM : nmax < M) (v : ℤ → ℕ → ℂ) (θ φ : ℝ) :
    fieldSum M mmax (Gval v nmax) θ φ = ∑ m ∈ Icc (-(mmax : ℤ)) mmax, ∑ n ∈ Icc m.natAbs nmax, v m n * sphY n m θ φ := by
  unfold fieldSum trigSum
  refine sum_congr rfl fun m _ => ?_
  rw [Gval_sum _ _ _ _ _ (by
    intro k hk
    rw [mem_Ioo, not_and_or] at hk
    rw [lt_abs]; omega), sum_mul]
  refine sum_congr rfl fun n _ => ?_
  unfold sphY; ring

theorem field_Hval (M nmax mmax : ℕ) (hM : nmax < M) (v : ℤ → ℕ → ℂ) (θ φ : ℝ) :
    Real.sin θ * fieldSum M mmax (Hval v nmax) θ φ = fieldSum M mmax (fun m ν => m * Gval v nmax m ν) θ φ := by
  unfold fieldSum
  rw [mul_sum]
  refine sum_congr rfl fun m _ => ?_
  rw [← mul_assoc, ← trigSum_sin M (Hval v nmax m) (fun ν hν => Hval_support _ _ _ _ (by omega))]
  congr 1
  simp only [Hval_sin]
  unfold trigSum
  symm
  refine sum_subset (fun ν hν => ?_) fun ν _ hν => ?_
  · rw [mem_Ioo] at *; omega
  · simp only
    rw [Gval_support v nmax m ν (by rw [mem_Ioo, not_and_or] at hν; rw [lt_abs]; omega)]; simp

end Verif
