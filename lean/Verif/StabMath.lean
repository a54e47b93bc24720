import Verif.TransP
import Verif.Math.Bessel
import Verif.Math.Addition
import Mathlib.Topology.ContinuousMap.Algebra
/-!
# Bounds for the scalar transforms: lemmas
-/
namespace Verif
open Finset

theorem ii_of_cont {f : ℝ → ℂ} (h : Continuous f) (a b : ℝ) : IntervalIntegrable f MeasureTheory.volume a b := h.intervalIntegrable a b

/-! ## Parseval for a symmetric trigonometric sum on `[0, π]` -/

theorem trig_parseval (M : ℕ) (f : ℤ → ℂ) (s : ℂ) (hs1 : s * (starRingEnd ℂ) s = 1) (hs : ∀ ν, f (-ν) = s * f ν) :
    ∫ θ in (0 : ℝ)..Real.pi, trigSum M f θ * (starRingEnd ℂ) (trigSum M f θ) = Real.pi * ∑ ν ∈ Ioo (-(M : ℤ)) M, f ν * (starRingEnd ℂ) (f ν) := by
  have conj_exp : ∀ (ν : ℤ) (θ : ℝ), (starRingEnd ℂ) (Complex.exp (ν * (θ * Complex.I))) = Complex.exp ((-ν : ℤ) * (θ * Complex.I)) := by
    intro ν θ
    rw [← Complex.exp_conj]
    congr 1
    simp
  have e : ∀ θ : ℝ, trigSum M f θ * (starRingEnd ℂ) (trigSum M f θ) =
      ∑ ν ∈ Ioo (-(M : ℤ)) M, ∑ κ ∈ Ioo (-(M : ℤ)) M, (f ν * (starRingEnd ℂ) (f κ)) * Complex.exp ((ν - κ : ℤ) * (θ * Complex.I)) := by
    intro θ
    unfold trigSum
    rw [map_sum, sum_mul_sum]
    refine sum_congr rfl fun ν _ => sum_congr rfl fun κ _ => ?_
    rw [map_mul, conj_exp, show (((ν - κ : ℤ) : ℂ)) * (θ * Complex.I) = ν * (θ * Complex.I) + ((-κ : ℤ) : ℂ) * (θ * Complex.I) by push_cast; ring, Complex.exp_add]
    ring
  simp only [e]
  rw [intervalIntegral.integral_finsetSum fun ν _ => ii_of_cont (by fun_prop) _ _]
  have e2 : ∀ ν ∈ Ioo (-(M : ℤ)) M, (∫ θ in (0 : ℝ)..Real.pi, ∑ κ ∈ Ioo (-(M : ℤ)) M, (f ν * (starRingEnd ℂ) (f κ)) * Complex.exp ((ν - κ : ℤ) * (θ * Complex.I))) =
      Real.pi * (f ν * (starRingEnd ℂ) (f ν)) + 2 * ∑ κ ∈ Ioo (-(M : ℤ)) M, (f ν * (starRingEnd ℂ) (f κ)) * Skern (κ - ν) := by
    intro ν hν
    rw [intervalIntegral.integral_finsetSum fun κ _ => ii_of_cont (by fun_prop) _ _]
    have : ∀ κ ∈ Ioo (-(M : ℤ)) M, (∫ θ in (0 : ℝ)..Real.pi, (f ν * (starRingEnd ℂ) (f κ)) * Complex.exp ((ν - κ : ℤ) * (θ * Complex.I))) =
        (if κ = ν then Real.pi * (f ν * (starRingEnd ℂ) (f ν)) else 0) + 2 * ((f ν * (starRingEnd ℂ) (f κ)) * Skern (κ - ν)) := by
      intro κ _
      rw [intervalIntegral.integral_const_mul, integral_expI, neg_sub]
      by_cases h : κ = ν
      · subst h; simp; ring
      · rw [if_neg h, if_neg (by omega)]; ring
    rw [sum_congr rfl this, sum_add_distrib, sum_ite_eq', if_pos hν, ← mul_sum]
  rw [sum_congr rfl e2, sum_add_distrib, ← mul_sum, ← mul_sum]
  have anti : ∑ ν ∈ Ioo (-(M : ℤ)) M, ∑ κ ∈ Ioo (-(M : ℤ)) M, (f ν * (starRingEnd ℂ) (f κ)) * Skern (κ - ν) = 0 := by
    have h1 := sum_Ioo_neg M (fun ν => ∑ κ ∈ Ioo (-(M : ℤ)) M, (f ν * (starRingEnd ℂ) (f κ)) * Skern (κ - ν))
    have h2 : ∀ ν, ∑ κ ∈ Ioo (-(M : ℤ)) M, (f (-ν) * (starRingEnd ℂ) (f κ)) * Skern (κ - (-ν)) =
        -∑ κ ∈ Ioo (-(M : ℤ)) M, (f ν * (starRingEnd ℂ) (f κ)) * Skern (κ - ν) := by
      intro ν
      rw [← sum_Ioo_neg M (fun κ => (f (-ν) * (starRingEnd ℂ) (f κ)) * Skern (κ - (-ν))), ← sum_neg_distrib]
      refine sum_congr rfl fun κ _ => ?_
      rw [show -κ - -ν = -(κ - ν) by ring, Skern_neg, hs, hs, map_mul]
      linear_combination (-(f ν * (starRingEnd ℂ) (f κ)) * Skern (κ - ν)) * hs1
    simp only [h2, sum_neg_distrib] at h1
    have h3 : (2 : ℂ) * ∑ ν ∈ Ioo (-(M : ℤ)) M, ∑ κ ∈ Ioo (-(M : ℤ)) M, (f ν * (starRingEnd ℂ) (f κ)) * Skern (κ - ν) = 0 := by
      linear_combination -h1
    exact (mul_eq_zero.mp h3).resolve_left two_ne_zero
  rw [anti, mul_zero, add_zero]

/-! ## Bessel's inequality for the θ-parts -/

/-- `∫_0^π f conj g sin θ dθ` for continuous functions. -/
noncomputable def thetaForm : C(ℝ, ℂ) →ₗ[ℂ] C(ℝ, ℂ) →ₗ⋆[ℂ] ℂ :=
  LinearMap.mk₂'ₛₗ (RingHom.id ℂ) (starRingEnd ℂ) (fun f g => ∫ θ in (0 : ℝ)..Real.pi, f θ * (starRingEnd ℂ) (g θ) * Real.sin θ)
    (fun f f' g => by
      rw [← intervalIntegral.integral_add (ii_of_cont (by fun_prop) _ _) (ii_of_cont (by fun_prop) _ _)]
      refine intervalIntegral.integral_congr fun θ _ => ?_
      simp only [ContinuousMap.add_apply]; ring)
    (fun a f g => by
      rw [RingHom.id_apply, smul_eq_mul, ← intervalIntegral.integral_const_mul]
      refine intervalIntegral.integral_congr fun θ _ => ?_
      simp only [ContinuousMap.smul_apply, smul_eq_mul]; ring)
    (fun f g g' => by
      rw [← intervalIntegral.integral_add (ii_of_cont (by fun_prop) _ _) (ii_of_cont (by fun_prop) _ _)]
      refine intervalIntegral.integral_congr fun θ _ => ?_
      simp only [ContinuousMap.add_apply, map_add]; ring)
    (fun a f g => by
      rw [smul_eq_mul, ← intervalIntegral.integral_const_mul]
      refine intervalIntegral.integral_congr fun θ _ => ?_
      simp only [ContinuousMap.smul_apply, smul_eq_mul, map_mul]; ring)

theorem thetaForm_apply (f g : C(ℝ, ℂ)) : thetaForm f g = ∫ θ in (0 : ℝ)..Real.pi, f θ * (starRingEnd ℂ) (g θ) * Real.sin θ := rfl

theorem thetaForm_self (f : C(ℝ, ℂ)) : thetaForm f f = ((∫ θ in (0 : ℝ)..Real.pi, ‖f θ‖ ^ 2 * Real.sin θ : ℝ) : ℂ) := by
  rw [thetaForm_apply, ← intervalIntegral.integral_ofReal]
  refine intervalIntegral.integral_congr fun θ _ => ?_
  beta_reduce
  rw [Complex.mul_conj, Complex.normSq_eq_norm_sq]
  push_cast; ring

theorem thetaForm_symm (f g : C(ℝ, ℂ)) : thetaForm g f = (starRingEnd ℂ) (thetaForm f g) := by
  rw [thetaForm_apply, thetaForm_apply, ← intervalIntegral.intervalIntegral_conj]
  refine intervalIntegral.integral_congr fun θ _ => ?_
  simp only [map_mul, Complex.conj_conj, Complex.conj_ofReal]; ring

theorem bessel_theta (f : C(ℝ, ℂ)) (m : ℤ) (N : ℕ) :
    ∑ n ∈ Icc m.natAbs N, ‖2 * Real.pi * ∫ θ in (0 : ℝ)..Real.pi, f θ * (thetaPart n m θ : ℂ) * Real.sin θ‖ ^ 2 ≤
      2 * Real.pi * ∫ θ in (0 : ℝ)..Real.pi, ‖f θ‖ ^ 2 := by
  have hpi := Real.pi_pos
  have key := bessel_gen thetaForm
    (fun v => by
      rw [thetaForm_self, Complex.ofReal_re]
      refine intervalIntegral.integral_nonneg hpi.le fun θ hθ => ?_
      exact mul_nonneg (by positivity) (Real.sin_nonneg_of_mem_Icc hθ))
    (fun v w => thetaForm_symm v w) (Icc m.natAbs N)
    (fun n => ⟨fun θ => (thetaPart n m θ : ℂ), Complex.continuous_ofReal.comp (continuous_thetaPart n m)⟩) (1 / (2 * Real.pi)) (by positivity)
    (fun n hn k hk => by
      rw [thetaForm_apply]
      have : (∫ θ in (0 : ℝ)..Real.pi, (thetaPart n m θ : ℂ) * (starRingEnd ℂ) (thetaPart k m θ : ℂ) * (Real.sin θ : ℂ)) =
          ((∫ θ in (0 : ℝ)..Real.pi, thetaPart n m θ * thetaPart k m θ * Real.sin θ : ℝ) : ℂ) := by
        rw [← intervalIntegral.integral_ofReal]
        refine intervalIntegral.integral_congr fun θ _ => ?_
        simp only [Complex.conj_ofReal]; push_cast; ring
      rw [ContinuousMap.coe_mk, ContinuousMap.coe_mk, this, thetaPart_ortho n k m (mem_Icc.mp hn).1 (mem_Icc.mp hk).1]
      split <;> simp) f
  rw [thetaForm_self, Complex.ofReal_re] at key
  have e : ∀ n, ‖2 * Real.pi * ∫ θ in (0 : ℝ)..Real.pi, f θ * (thetaPart n m θ : ℂ) * Real.sin θ‖ ^ 2 =
      (2 * Real.pi) ^ 2 * ‖thetaForm f ⟨fun θ => (thetaPart n m θ : ℂ), Complex.continuous_ofReal.comp (continuous_thetaPart n m)⟩‖ ^ 2 := by
    intro n
    rw [thetaForm_apply, norm_mul, mul_pow]
    congr 1
    · rw [show (2 * (Real.pi : ℂ)) = ((2 * Real.pi : ℝ) : ℂ) by push_cast; ring, Complex.norm_real, Real.norm_eq_abs, sq_abs]
    · congr 2
      refine intervalIntegral.integral_congr fun θ _ => ?_
      simp only [ContinuousMap.coe_mk, Complex.conj_ofReal]
  simp only [e]
  rw [← mul_sum]
  have mono : (∫ θ in (0 : ℝ)..Real.pi, ‖f θ‖ ^ 2 * Real.sin θ) ≤ ∫ θ in (0 : ℝ)..Real.pi, ‖f θ‖ ^ 2 := by
    refine intervalIntegral.integral_mono_on hpi.le ?_ ?_ fun θ _ => ?_
    · exact Continuous.intervalIntegrable (by fun_prop) _ _
    · exact Continuous.intervalIntegrable (by fun_prop) _ _
    · have := Real.sin_le_one θ
      nlinarith [sq_nonneg ‖f θ‖]
  calc (2 * Real.pi) ^ 2 * _ ≤ (2 * Real.pi) ^ 2 * (1 / (2 * Real.pi) * ∫ θ in (0 : ℝ)..Real.pi, ‖f θ‖ ^ 2 * Real.sin θ) := by gcongr
    _ = 2 * Real.pi * ∫ θ in (0 : ℝ)..Real.pi, ‖f θ‖ ^ 2 * Real.sin θ := by field_simp
    _ ≤ _ := by gcongr

/-! ## Bessel's inequality for the 2-D DFT -/

/-- `Σ_{ij} f conj g`. -/
noncomputable def gridForm (R C : ℕ) : (ℕ → ℕ → ℂ) →ₗ[ℂ] (ℕ → ℕ → ℂ) →ₗ⋆[ℂ] ℂ :=
  LinearMap.mk₂'ₛₗ (RingHom.id ℂ) (starRingEnd ℂ) (fun f g => ∑ i ∈ range R, ∑ j ∈ range C, f i j * (starRingEnd ℂ) (g i j))
    (fun f f' g => by simp only [Pi.add_apply, add_mul, sum_add_distrib])
    (fun a f g => by simp only [Pi.smul_apply, smul_eq_mul, mul_assoc, mul_sum, RingHom.id_apply])
    (fun f g g' => by simp only [Pi.add_apply, map_add, mul_add, sum_add_distrib])
    (fun a f g => by simp only [Pi.smul_apply, smul_eq_mul, map_mul, mul_sum, mul_left_comm])

theorem gridForm_apply (R C : ℕ) (f g : ℕ → ℕ → ℂ) : gridForm R C f g = ∑ i ∈ range R, ∑ j ∈ range C, f i j * (starRingEnd ℂ) (g i j) := rfl

theorem gridForm_self (R C : ℕ) (f : ℕ → ℕ → ℂ) : gridForm R C f f = ((∑ i ∈ range R, ∑ j ∈ range C, ‖f i j‖ ^ 2 : ℝ) : ℂ) := by
  rw [gridForm_apply]
  push_cast
  refine sum_congr rfl fun i _ => sum_congr rfl fun j _ => ?_
  rw [Complex.mul_conj, Complex.normSq_eq_norm_sq]; push_cast; rfl

theorem conj_root (n : ℕ) (j : ℤ) : (starRingEnd ℂ) (root n j) = root n (-j) := by
  unfold root
  rw [← Complex.exp_conj]
  congr 1
  simp only [map_div₀, map_mul, Complex.conj_I, Complex.conj_ofReal, map_intCast, map_natCast, Complex.conj_ofNat]
  push_cast
  ring

theorem dft_bessel (D : Arr2 ℂ) (S : Finset (ℤ × ℤ)) (hR : 0 < D.rows) (hC : 0 < D.cols)
    (hS : ∀ p ∈ S, ∀ q ∈ S, (D.rows : ℤ) ∣ p.1 - q.1 → (D.cols : ℤ) ∣ p.2 - q.2 → p = q) :
    ∑ p ∈ S, ‖dftc D p.1 p.2‖ ^ 2 ≤ (∑ i ∈ range D.rows, ∑ j ∈ range D.cols, ‖D.at' i j‖ ^ 2) / (D.rows * D.cols) := by
  have hR' : (0 : ℝ) < D.rows := by exact_mod_cast hR
  have hC' : (0 : ℝ) < D.cols := by exact_mod_cast hC
  have key := bessel_gen (gridForm D.rows D.cols)
    (fun v => by
      rw [gridForm_self, Complex.ofReal_re]; positivity)
    (fun v w => by
      rw [gridForm_apply, gridForm_apply, map_sum]
      refine sum_congr rfl fun i _ => ?_
      rw [map_sum]
      refine sum_congr rfl fun j _ => ?_
      rw [map_mul, Complex.conj_conj, mul_comm]) S
    (fun p i j => root D.rows (i * p.1) * root D.cols (j * p.2)) (D.rows * D.cols) (by positivity)
    (fun p hp q hq => by
      rw [gridForm_apply]
      have e : ∀ i ∈ range D.rows, ∑ j ∈ range D.cols, root D.rows (i * p.1) * root D.cols (j * p.2) * (starRingEnd ℂ) (root D.rows (i * q.1) * root D.cols (j * q.2)) =
          root D.rows (i * (p.1 - q.1)) * ∑ j ∈ range D.cols, root D.cols (j * (p.2 - q.2)) := by
        intro i _
        rw [mul_sum]
        refine sum_congr rfl fun j _ => ?_
        rw [map_mul, conj_root, conj_root, mul_sub, mul_sub, sub_eq_add_neg, sub_eq_add_neg, root_add, root_add]
        ring
      rw [sum_congr rfl e, ← sum_mul]
      have s1 := sum_root hR (p.1 - q.1)
      have s2 := sum_root hC (p.2 - q.2)
      rw [show ∑ i ∈ range D.rows, root D.rows (i * (p.1 - q.1)) = if (D.rows : ℤ) ∣ p.1 - q.1 then (D.rows : ℂ) else 0 from by
          rw [← s1]; exact sum_congr rfl fun i _ => by congr 1; ring,
        show ∑ j ∈ range D.cols, root D.cols (j * (p.2 - q.2)) = if (D.cols : ℤ) ∣ p.2 - q.2 then (D.cols : ℂ) else 0 from by
          rw [← s2]; exact sum_congr rfl fun i _ => by congr 1; ring]
      by_cases h : p = q
      · subst h; simp
      · rw [if_neg h]
        by_cases h1 : (D.rows : ℤ) ∣ p.1 - q.1
        · by_cases h2 : (D.cols : ℤ) ∣ p.2 - q.2
          · exact absurd (hS p hp q hq h1 h2) h
          · rw [if_neg h2, mul_zero]
        · rw [if_neg h1, zero_mul]) (fun i j => D.at' i j)
  rw [gridForm_self, Complex.ofReal_re] at key
  have e : ∀ p : ℤ × ℤ, ‖dftc D p.1 p.2‖ ^ 2 =
      ‖gridForm D.rows D.cols (fun i j => D.at' i j) (fun i j => root D.rows (i * p.1) * root D.cols (j * p.2))‖ ^ 2 / (D.rows * D.cols) ^ 2 := by
    intro p
    rw [gridForm_apply]
    unfold dftc
    rw [norm_div, div_pow]
    congr 2
    · congr 1
      refine sum_congr rfl fun i _ => sum_congr rfl fun j _ => ?_
      rw [map_mul, conj_root, conj_root]; ring
    · rw [norm_mul, Complex.norm_natCast, Complex.norm_natCast]
  simp only [e]
  rw [← sum_div, div_le_div_iff₀ (by positivity) (by positivity)]
  calc _ ≤ ((D.rows : ℝ) * D.cols * ∑ i ∈ range D.rows, ∑ j ∈ range D.cols, ‖D.at' i j‖ ^ 2) * (D.rows * D.cols) := by gcongr
    _ = _ := by ring

end Verif
