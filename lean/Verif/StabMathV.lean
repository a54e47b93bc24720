import Verif.StabMath
import Verif.Math.VecHarm
/-!
# Bounds for the vector transforms: lemmas
-/
namespace Verif
open Finset

/-- `∫_0^π (f₁ conj g₁ + f₂ conj g₂) sin θ dθ`. -/
noncomputable def vecForm : (C(ℝ, ℂ) × C(ℝ, ℂ)) →ₗ[ℂ] (C(ℝ, ℂ) × C(ℝ, ℂ)) →ₗ⋆[ℂ] ℂ :=
  LinearMap.mk₂'ₛₗ (RingHom.id ℂ) (starRingEnd ℂ) (fun f g => thetaForm f.1 g.1 + thetaForm f.2 g.2)
    (fun f f' g => by simp only [Prod.fst_add, Prod.snd_add, map_add, LinearMap.add_apply]; ring)
    (fun a f g => by simp only [Prod.smul_fst, Prod.smul_snd, map_smul, LinearMap.smul_apply, smul_eq_mul, RingHom.id_apply]; ring)
    (fun f g g' => by simp only [Prod.fst_add, Prod.snd_add, map_add]; ring)
    (fun a f g => by simp only [Prod.smul_fst, Prod.smul_snd, LinearMap.map_smulₛₗ, smul_eq_mul]; ring)

theorem vecForm_apply (f g : C(ℝ, ℂ) × C(ℝ, ℂ)) : vecForm f g = thetaForm f.1 g.1 + thetaForm f.2 g.2 := rfl

/-- `a τ(θ)` as a continuous complex function. -/
noncomputable def cfun (a : ℂ) (f : ℝ → ℝ) (hf : Continuous f) : C(ℝ, ℂ) := ⟨fun θ => a * (f θ : ℂ), by fun_prop⟩

theorem thetaForm_cfun (a b : ℂ) (f g : ℝ → ℝ) (hf : Continuous f) (hg : Continuous g) :
    thetaForm (cfun a f hf) (cfun b g hg) = a * (starRingEnd ℂ) b * ((∫ θ in (0 : ℝ)..Real.pi, f θ * g θ * Real.sin θ : ℝ) : ℂ) := by
  rw [thetaForm_apply, ← intervalIntegral.integral_ofReal, ← intervalIntegral.integral_const_mul]
  refine intervalIntegral.integral_congr fun θ _ => ?_
  simp only [cfun, ContinuousMap.coe_mk, map_mul, Complex.conj_ofReal]
  push_cast; ring

/-- The two families of θ-parts of the vector harmonics of order `m`. -/
noncomputable def vfam (m : ℤ) (p : Bool × ℕ) : C(ℝ, ℂ) × C(ℝ, ℂ) :=
  if p.1 then
    (cfun (-1 / Real.sqrt (p.2 * (p.2 + 1))) (hPart p.2 m) (continuous_hPart p.2 m), cfun (-Complex.I / Real.sqrt (p.2 * (p.2 + 1))) (tPart p.2 m) (continuous_tPart p.2 m))
  else
    (cfun (-1 / Real.sqrt (p.2 * (p.2 + 1))) (tPart p.2 m) (continuous_tPart p.2 m), cfun (-Complex.I / Real.sqrt (p.2 * (p.2 + 1))) (hPart p.2 m) (continuous_hPart p.2 m))

theorem vfam_ortho (m : ℤ) (p q : Bool × ℕ) (hp : m.natAbs ≤ p.2) (hq : m.natAbs ≤ q.2) (hp0 : p.2 ≠ 0) :
    vecForm (vfam m p) (vfam m q) = if p = q then ((1 / (2 * Real.pi) : ℝ) : ℂ) else 0 := by
  obtain ⟨s, n⟩ := p
  obtain ⟨t, k⟩ := q
  simp only at hp hq hp0
  have hpi := Real.pi_pos
  have int_add : ∀ f g : ℝ → ℝ, Continuous f → Continuous g →
      (∫ θ in (0 : ℝ)..Real.pi, f θ * Real.sin θ) + (∫ θ in (0 : ℝ)..Real.pi, g θ * Real.sin θ) = ∫ θ in (0 : ℝ)..Real.pi, (f θ + g θ) * Real.sin θ := by
    intro f g hf hg
    rw [← intervalIntegral.integral_add (by apply Continuous.intervalIntegrable; fun_prop) (by apply Continuous.intervalIntegrable; fun_prop)]
    exact intervalIntegral.integral_congr fun θ _ => by ring
  have h1 := continuous_tPart n m
  have h2 := continuous_tPart k m
  have h3 := continuous_hPart n m
  have h4 := continuous_hPart k m
  have o1 := vec_ortho n k m hp hq
  have o2 := vec_cross n k m
  have a1 := int_add (fun θ => tPart n m θ * tPart k m θ) (fun θ => hPart n m θ * hPart k m θ) (by fun_prop) (by fun_prop)
  have a2 := int_add (fun θ => hPart n m θ * tPart k m θ) (fun θ => tPart n m θ * hPart k m θ) (by fun_prop) (by fun_prop)
  rw [o1] at a1
  rw [o2] at a2
  set sn : ℝ := Real.sqrt (n * (n + 1)) with hsn
  set sk : ℝ := Real.sqrt (k * (k + 1)) with hsk
  have hnn : sn * sn = n * (n + 1) := Real.mul_self_sqrt (by positivity)
  have hn0 : sn ≠ 0 := by
    intro h
    rw [h, mul_zero] at hnn
    have : (0 : ℝ) < n := by exact_mod_cast Nat.pos_of_ne_zero hp0
    nlinarith
  have I2 := Complex.I_mul_I
  have same : ∀ x y : ℝ, x + y = (if n = k then n * (n + 1) / (2 * Real.pi) else 0) →
      (-1 / (sn : ℂ)) * (starRingEnd ℂ) (-1 / (sk : ℂ)) * (x : ℂ) + (-Complex.I / (sn : ℂ)) * (starRingEnd ℂ) (-Complex.I / (sk : ℂ)) * (y : ℂ) =
        if n = k then ((1 / (2 * Real.pi) : ℝ) : ℂ) else 0 := by
    intro x y h
    simp only [map_div₀, map_neg, map_one, Complex.conj_I, Complex.conj_ofReal]
    have e : (-1 / (sn : ℂ)) * (-1 / (sk : ℂ)) * (x : ℂ) + (-Complex.I / (sn : ℂ)) * (- -Complex.I / (sk : ℂ)) * (y : ℂ) =
        ((x + y : ℝ) : ℂ) / ((sn : ℂ) * sk) := by
      push_cast
      rw [div_mul_div_comm, div_mul_div_comm]
      linear_combination (-(y : ℂ) / ((sn : ℂ) * sk)) * I2
    rw [e, h]
    by_cases hnk : n = k
    · subst hnk
      rw [if_pos rfl, if_pos rfl, ← hnn]
      have : (sn : ℂ) ≠ 0 := by exact_mod_cast hn0
      have hp' : (Real.pi : ℂ) ≠ 0 := by exact_mod_cast hpi.ne'
      rw [hsk, ← hsn]
      push_cast
      field_simp
    · rw [if_neg hnk, if_neg hnk]; simp
  have cross : ∀ x y : ℝ, x + y = 0 →
      (-1 / (sn : ℂ)) * (starRingEnd ℂ) (-1 / (sk : ℂ)) * (x : ℂ) + (-Complex.I / (sn : ℂ)) * (starRingEnd ℂ) (-Complex.I / (sk : ℂ)) * (y : ℂ) = 0 := by
    intro x y h
    simp only [map_div₀, map_neg, map_one, Complex.conj_I, Complex.conj_ofReal]
    have hc : (x : ℂ) + y = 0 := by exact_mod_cast h
    rw [div_mul_div_comm, div_mul_div_comm]
    linear_combination (-(y : ℂ) / ((sn : ℂ) * sk)) * I2 + (1 / ((sn : ℂ) * sk)) * hc
  rw [vecForm_apply]
  unfold vfam
  cases s <;> cases t <;> simp only [if_true, Bool.false_eq_true, if_false, thetaForm_cfun, Prod.mk.injEq, true_and, false_and, Bool.true_eq_false]
  · exact same _ _ a1
  · exact cross _ _ ((add_comm _ _).trans a2)
  · exact cross _ _ a2
  · exact same _ _ ((add_comm _ _).trans a1)

theorem bessel_vec (f g : C(ℝ, ℂ)) (m : ℤ) (N : ℕ) :
    ∑ p ∈ (univ : Finset Bool) ×ˢ (Icc (max 1 m.natAbs) N), ‖2 * Real.pi * vecForm (f, g) (vfam m p)‖ ^ 2 ≤
      2 * Real.pi * ((∫ θ in (0 : ℝ)..Real.pi, ‖f θ‖ ^ 2) + ∫ θ in (0 : ℝ)..Real.pi, ‖g θ‖ ^ 2) := by
  have hpi := Real.pi_pos
  have nonneg : ∀ f : C(ℝ, ℂ), 0 ≤ ∫ θ in (0 : ℝ)..Real.pi, ‖f θ‖ ^ 2 * Real.sin θ := fun f =>
    intervalIntegral.integral_nonneg hpi.le fun θ hθ => mul_nonneg (by positivity) (Real.sin_nonneg_of_mem_Icc hθ)
  have key := bessel_gen vecForm
    (fun v => by
      rw [vecForm_apply, thetaForm_self, thetaForm_self, Complex.add_re, Complex.ofReal_re, Complex.ofReal_re]
      exact add_nonneg (nonneg _) (nonneg _))
    (fun v w => by rw [vecForm_apply, vecForm_apply, thetaForm_symm, thetaForm_symm v.2, map_add])
    ((univ : Finset Bool) ×ˢ (Icc (max 1 m.natAbs) N)) (vfam m) (1 / (2 * Real.pi)) (by positivity)
    (fun p hp q hq => by
      simp only [mem_product, mem_Icc] at hp hq
      exact vfam_ortho m p q (by omega) (by omega) (by omega)) (f, g)
  rw [vecForm_apply, thetaForm_self, thetaForm_self, Complex.add_re, Complex.ofReal_re, Complex.ofReal_re] at key
  have e : ∀ p, ‖2 * Real.pi * vecForm (f, g) (vfam m p)‖ ^ 2 = (2 * Real.pi) ^ 2 * ‖vecForm (f, g) (vfam m p)‖ ^ 2 := by
    intro p
    rw [norm_mul, mul_pow]
    congr 1
    rw [show (2 * (Real.pi : ℂ)) = ((2 * Real.pi : ℝ) : ℂ) by push_cast; ring, Complex.norm_real, Real.norm_eq_abs, sq_abs]
  simp only [e]
  rw [← mul_sum]
  have mono : ∀ f : C(ℝ, ℂ), (∫ θ in (0 : ℝ)..Real.pi, ‖f θ‖ ^ 2 * Real.sin θ) ≤ ∫ θ in (0 : ℝ)..Real.pi, ‖f θ‖ ^ 2 := by
    intro f
    refine intervalIntegral.integral_mono_on hpi.le ?_ ?_ fun θ _ => ?_
    · exact Continuous.intervalIntegrable (by fun_prop) _ _
    · exact Continuous.intervalIntegrable (by fun_prop) _ _
    · have := Real.sin_le_one θ
      nlinarith [sq_nonneg ‖f θ‖]
  have mf := mono f
  have mg := mono g
  calc (2 * Real.pi) ^ 2 * _ ≤ (2 * Real.pi) ^ 2 * (1 / (2 * Real.pi) * ((∫ θ in (0 : ℝ)..Real.pi, ‖f θ‖ ^ 2 * Real.sin θ) + ∫ θ in (0 : ℝ)..Real.pi, ‖g θ‖ ^ 2 * Real.sin θ)) := by gcongr
    _ = 2 * Real.pi * ((∫ θ in (0 : ℝ)..Real.pi, ‖f θ‖ ^ 2 * Real.sin θ) + ∫ θ in (0 : ℝ)..Real.pi, ‖g θ‖ ^ 2 * Real.sin θ) := by field_simp
    _ ≤ _ := by gcongr

end Verif
