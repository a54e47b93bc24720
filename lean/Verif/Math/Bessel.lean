import Mathlib.Algebra.Module.LinearMap.Star
import Mathlib.Analysis.Complex.Basic
import Mathlib.Algebra.BigOperators.Field
import Mathlib.Tactic.LinearCombination
/-!
# Bessel's inequality for a positive semidefinite Hermitian form
-/
namespace Verif
open Finset

theorem bessel_gen {V ι : Type} [AddCommGroup V] [Module ℂ V] [DecidableEq ι] (B : V →ₗ[ℂ] V →ₗ⋆[ℂ] ℂ)
    (hpos : ∀ v, 0 ≤ (B v v).re) (hsym : ∀ v w, B w v = (starRingEnd ℂ) (B v w)) (s : Finset ι) (e : ι → V) (κ : ℝ) (hκ : 0 < κ)
    (ho : ∀ i ∈ s, ∀ j ∈ s, B (e i) (e j) = if i = j then (κ : ℂ) else 0) (g : V) :
    ∑ i ∈ s, ‖B g (e i)‖ ^ 2 ≤ κ * (B g g).re := by
  have hκ' : (κ : ℂ) ≠ 0 := by exact_mod_cast hκ.ne'
  set a : ι → ℂ := fun i => B g (e i) / κ with ha
  set u : V := ∑ i ∈ s, a i • e i with hu
  have h1 : B u g = ∑ i ∈ s, a i * (starRingEnd ℂ) (B g (e i)) := by
    rw [hu, map_sum, LinearMap.sum_apply]
    refine sum_congr rfl fun i _ => ?_
    rw [map_smul, LinearMap.smul_apply, smul_eq_mul, hsym g (e i)]
  have h2 : ∀ i ∈ s, B u (e i) = a i * κ := by
    intro i hi
    rw [hu, map_sum, LinearMap.sum_apply, sum_congr rfl fun j hj => show B (a j • e j) (e i) = if j = i then a i * κ else 0 from by
      rw [map_smul, LinearMap.smul_apply, smul_eq_mul, ho j hj i hi]
      split
      · next h => rw [h]
      · rw [mul_zero]]
    rw [sum_ite_eq', if_pos hi]
  have h3 : B u u = ∑ i ∈ s, (starRingEnd ℂ) (a i) * (a i * κ) := by
    conv_lhs => rw [hu]
    rw [← hu, map_sum]
    refine sum_congr rfl fun i hi => ?_
    rw [LinearMap.map_smulₛₗ, smul_eq_mul, h2 i hi]
  have h4 : B g u = ∑ i ∈ s, (starRingEnd ℂ) (a i) * B g (e i) := by
    rw [hu, map_sum]
    refine sum_congr rfl fun i hi => ?_
    rw [LinearMap.map_smulₛₗ, smul_eq_mul]
  have h5 := hpos (g - u)
  have h6 : B (g - u) (g - u) = B g g - ∑ i ∈ s, ((‖B g (e i)‖ ^ 2 / κ : ℝ) : ℂ) := by
    rw [LinearMap.map_sub B g u, LinearMap.sub_apply, map_sub, map_sub, h1, h3, h4]
    have e1 : ∑ i ∈ s, a i * (starRingEnd ℂ) (B g (e i)) = ∑ i ∈ s, ((‖B g (e i)‖ ^ 2 / κ : ℝ) : ℂ) := sum_congr rfl fun i _ => by
      rw [ha]; simp only [div_mul_eq_mul_div]
      rw [Complex.mul_conj, Complex.normSq_eq_norm_sq]; push_cast; rfl
    have e2 : ∑ i ∈ s, (starRingEnd ℂ) (a i) * (a i * κ) = ∑ i ∈ s, ((‖B g (e i)‖ ^ 2 / κ : ℝ) : ℂ) := sum_congr rfl fun i _ => by
      rw [ha]; simp only [map_div₀, Complex.conj_ofReal]
      have := Complex.mul_conj (B g (e i))
      rw [Complex.normSq_eq_norm_sq] at this
      push_cast at this ⊢
      rw [← this]
      field_simp
    have e3 : ∑ i ∈ s, (starRingEnd ℂ) (a i) * B g (e i) = ∑ i ∈ s, ((‖B g (e i)‖ ^ 2 / κ : ℝ) : ℂ) := sum_congr rfl fun i _ => by
      rw [ha]; simp only [map_div₀, Complex.conj_ofReal]
      have := Complex.mul_conj (B g (e i))
      rw [Complex.normSq_eq_norm_sq] at this
      push_cast at this ⊢
      rw [← this]
      field_simp
    rw [e1, e2, e3]
    ring
  rw [h6, ← Complex.ofReal_sum, Complex.sub_re, Complex.ofReal_re, ← sum_div, sub_nonneg, div_le_iff₀ hκ] at h5
  linarith
end Verif
