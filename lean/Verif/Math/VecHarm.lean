import Verif.Math.Addition
import Mathlib.Analysis.Calculus.Deriv.Polynomial
import Mathlib.Analysis.SpecialFunctions.Trigonometric.Deriv
import Mathlib.MeasureTheory.Integral.IntervalIntegral.IntegrationByParts
import Mathlib.Topology.Algebra.Module.Cardinality
/-!
# Vector harmonics: orthogonality of the θ-parts and the addition theorem
-/
namespace Verif
open Polynomial Finset

/-- The constant in front of `sin^|m| θ P(cos θ)` in `thetaPart`. -/
noncomputable def tconst (n : ℕ) (m : ℤ) : ℝ := (if 0 ≤ m then (-1) ^ m.natAbs else 1) * normSH n m.natAbs

theorem thetaPart_eq (n : ℕ) (m : ℤ) (θ : ℝ) :
    thetaPart n m θ = tconst n m * (Real.sin θ ^ m.natAbs * (legD n m.natAbs).eval (Real.cos θ)) := rfl

/-- `m Θ / sin θ`, extended to the poles. -/
noncomputable def hPart (n : ℕ) (m : ℤ) (θ : ℝ) : ℝ :=
  tconst n m * (m * (Real.sin θ ^ (m.natAbs - 1) * (legD n m.natAbs).eval (Real.cos θ)))

/-- `dΘ/dθ`. -/
noncomputable def tPart (n : ℕ) (m : ℤ) (θ : ℝ) : ℝ :=
  tconst n m * (m.natAbs * Real.sin θ ^ (m.natAbs - 1) * Real.cos θ * (legD n m.natAbs).eval (Real.cos θ) -
    Real.sin θ ^ (m.natAbs + 1) * (legD n (m.natAbs + 1)).eval (Real.cos θ))

theorem sin_hPart (n : ℕ) (m : ℤ) (θ : ℝ) : Real.sin θ * hPart n m θ = m * thetaPart n m θ := by
  rw [thetaPart_eq]; unfold hPart
  rcases Nat.eq_zero_or_pos m.natAbs with h | h
  · rw [Int.natAbs_eq_zero] at h; subst h; simp
  · obtain ⟨k, hk⟩ := Nat.exists_eq_add_of_le' h
    rw [hk, Nat.add_sub_cancel, pow_succ]; ring

theorem hasDerivAt_leg_cos (n m : ℕ) (θ : ℝ) :
    HasDerivAt (fun θ : ℝ => (legD n m).eval (Real.cos θ)) (-(Real.sin θ * (legD n (m + 1)).eval (Real.cos θ))) θ := by
  have h := ((legD n m).hasDerivAt (Real.cos θ)).comp θ (Real.hasDerivAt_cos θ)
  rw [derivative_legD] at h
  exact h.congr_deriv (by ring)

theorem hasDerivAt_sin_pow (k : ℕ) (θ : ℝ) : HasDerivAt (fun θ : ℝ => Real.sin θ ^ k) (k * Real.sin θ ^ (k - 1) * Real.cos θ) θ :=
  (Real.hasDerivAt_sin θ).pow k

theorem hasDerivAt_thetaR (n : ℕ) (m : ℤ) (θ : ℝ) : HasDerivAt (fun θ => thetaPart n m θ) (tPart n m θ) θ := by
  have h := ((hasDerivAt_sin_pow m.natAbs θ).mul (hasDerivAt_leg_cos n m.natAbs θ)).const_mul (tconst n m)
  refine h.congr_deriv ?_
  unfold tPart
  rw [pow_succ]
  ring

/-- The associated Legendre equation. -/
theorem hasDerivAt_sin_tPart (n : ℕ) (m : ℤ) (θ : ℝ) :
    HasDerivAt (fun θ => Real.sin θ * tPart n m θ) (m * hPart n m θ - n * (n + 1) * (Real.sin θ * thetaPart n m θ)) θ := by
  have ode := congrArg (fun p : ℝ[X] => p.eval (Real.cos θ)) (legD_ode n m.natAbs)
  simp only [eval_add, eval_sub, eval_mul, eval_pow, eval_one, eval_X, eval_C, eval_zero] at ode
  have hsc := Real.sin_sq_add_cos_sq θ
  have e : (fun θ => Real.sin θ * tPart n m θ) = fun θ => tconst n m * (m.natAbs * (Real.sin θ ^ m.natAbs * (Real.cos θ * (legD n m.natAbs).eval (Real.cos θ))) -
      Real.sin θ ^ (m.natAbs + 2) * (legD n (m.natAbs + 1)).eval (Real.cos θ)) := by
    funext θ
    unfold tPart
    rcases Nat.eq_zero_or_pos m.natAbs with h | h
    · rw [h]; simp; ring
    · obtain ⟨k, hk⟩ := Nat.exists_eq_add_of_le' h
      rw [hk, Nat.add_sub_cancel]; ring
  rw [e]
  have d1 := ((hasDerivAt_sin_pow m.natAbs θ).mul ((Real.hasDerivAt_cos θ).mul (hasDerivAt_leg_cos n m.natAbs θ))).const_mul (m.natAbs : ℝ)
  have d2 := (hasDerivAt_sin_pow (m.natAbs + 2) θ).mul (hasDerivAt_leg_cos n (m.natAbs + 1) θ)
  refine ((d1.sub d2).const_mul (tconst n m)).congr_deriv ?_
  rw [thetaPart_eq]; unfold hPart
  have hm2 : (m : ℝ) * m = (m.natAbs : ℝ) * m.natAbs := by
    have := congrArg (fun x : ℤ => (x : ℝ)) (Int.natAbs_mul_self' m)
    simp only [Int.cast_mul, Int.cast_natCast] at this
    exact this.symm
  rcases Nat.eq_zero_or_pos m.natAbs with h | h
  · rw [Int.natAbs_eq_zero] at h; subst h
    simp only [Int.natAbs_zero, Int.cast_zero, Nat.cast_zero, zero_add, Nat.cast_ofNat, Pi.mul_apply, zero_mul, sub_zero, mul_one] at ode ⊢
    linear_combination (tconst n 0 * Real.sin θ) * ode + (tconst n 0 * Real.sin θ * (legD n 2).eval (Real.cos θ)) * hsc
  · obtain ⟨k, hk⟩ := Nat.exists_eq_add_of_le' h
    rw [hk] at ode hm2 ⊢
    simp only [Nat.add_sub_cancel, show k + 1 + 2 - 1 = k + 2 by omega, Pi.mul_apply]
    push_cast at ode hm2 ⊢
    have hW : legD n (k + 1 + 1 + 1) = legD n (k + 1 + 2) := rfl
    rw [hW]
    set S := Real.sin θ
    set C' := Real.cos θ
    set P := (legD n (k + 1)).eval C'
    set Q := (legD n (k + 1 + 1)).eval C'
    set W := (legD n (k + 1 + 2)).eval C'
    linear_combination (tconst n m * S ^ (k + 2)) * ode + (tconst n m * S ^ (k + 2) * W) * hsc +
      (-(tconst n m) * S ^ k * P * 1) * hm2 + (tconst n m * S ^ k * P * (k + 1) * (k + 1)) * hsc

theorem continuous_tPart (n : ℕ) (m : ℤ) : Continuous (tPart n m) := by
  have h : ∀ k, Continuous fun θ : ℝ => (legD n k).eval (Real.cos θ) := fun k => (legD n k).continuous.comp Real.continuous_cos
  unfold tPart
  have h1 := h m.natAbs
  have h2 := h (m.natAbs + 1)
  fun_prop

theorem continuous_hPart (n : ℕ) (m : ℤ) : Continuous (hPart n m) := by
  have h : ∀ k, Continuous fun θ : ℝ => (legD n k).eval (Real.cos θ) := fun k => (legD n k).continuous.comp Real.continuous_cos
  unfold hPart
  have h1 := h m.natAbs
  fun_prop

theorem continuous_thetaR (n : ℕ) (m : ℤ) : Continuous fun θ => thetaPart n m θ :=
  continuous_iff_continuousAt.mpr fun θ => (hasDerivAt_thetaR n m θ).continuousAt

/-- Orthogonality of the two families within one order. -/
theorem vec_ortho (n k : ℕ) (m : ℤ) (hn : m.natAbs ≤ n) (hk : m.natAbs ≤ k) :
    ∫ θ in (0 : ℝ)..Real.pi, (tPart n m θ * tPart k m θ + hPart n m θ * hPart k m θ) * Real.sin θ =
      if n = k then n * (n + 1) / (2 * Real.pi) else 0 := by
  have ct := continuous_thetaR
  have c1 := continuous_tPart
  have c2 := continuous_hPart
  have hparts := intervalIntegral.integral_mul_deriv_eq_deriv_mul (a := 0) (b := Real.pi)
    (u := fun θ => Real.sin θ * tPart n m θ) (u' := fun θ => m * hPart n m θ - n * (n + 1) * (Real.sin θ * thetaPart n m θ))
    (v := fun θ => thetaPart k m θ) (v' := tPart k m) (fun θ _ => hasDerivAt_sin_tPart n m θ) (fun θ _ => hasDerivAt_thetaR k m θ)
    (by apply Continuous.intervalIntegrable; have := ct n m; have := c2 n m; fun_prop) ((c1 k m).intervalIntegrable _ _)
  simp only [Real.sin_pi, Real.sin_zero, zero_mul, sub_zero, zero_sub] at hparts
  have e : ∀ θ, (tPart n m θ * tPart k m θ + hPart n m θ * hPart k m θ) * Real.sin θ =
      Real.sin θ * tPart n m θ * tPart k m θ + hPart n m θ * (m * thetaPart k m θ) := by
    intro θ; rw [← sin_hPart]; ring
  simp only [e]
  have hh := c2 n m
  have ht := c1 n m
  have hk1 := c1 k m
  have htk := ct k m
  have htn := ct n m
  rw [intervalIntegral.integral_add (by apply Continuous.intervalIntegrable; fun_prop) (by apply Continuous.intervalIntegrable; fun_prop), hparts,
    ← intervalIntegral.integral_neg, ← intervalIntegral.integral_add (by apply Continuous.intervalIntegrable; fun_prop) (by apply Continuous.intervalIntegrable; fun_prop)]
  have e2 : ∀ θ, -((m * hPart n m θ - n * (n + 1) * (Real.sin θ * thetaPart n m θ)) * thetaPart k m θ) + hPart n m θ * (m * thetaPart k m θ) =
      (n * (n + 1)) * (thetaPart n m θ * thetaPart k m θ * Real.sin θ) := by intro θ; ring
  simp only [e2]
  rw [intervalIntegral.integral_const_mul, thetaPart_ortho n k m hn hk]
  split
  · ring
  · ring

/-- The two families are orthogonal to each other. -/
theorem vec_cross (n k : ℕ) (m : ℤ) :
    ∫ θ in (0 : ℝ)..Real.pi, (hPart n m θ * tPart k m θ + tPart n m θ * hPart k m θ) * Real.sin θ = 0 := by
  have e : ∀ θ, (hPart n m θ * tPart k m θ + tPart n m θ * hPart k m θ) * Real.sin θ =
      m * (tPart n m θ * thetaPart k m θ + thetaPart n m θ * tPart k m θ) := by
    intro θ
    linear_combination (tPart k m θ) * sin_hPart n m θ + (tPart n m θ) * sin_hPart k m θ
  simp only [e]
  have d : ∀ θ ∈ Set.uIcc 0 Real.pi, HasDerivAt (fun θ => thetaPart n m θ * thetaPart k m θ) (tPart n m θ * thetaPart k m θ + thetaPart n m θ * tPart k m θ) θ :=
    fun θ _ => (hasDerivAt_thetaR n m θ).mul (hasDerivAt_thetaR k m θ)
  have h1 := continuous_tPart n m
  have h2 := continuous_tPart k m
  have h3 := continuous_thetaR n m
  have h4 := continuous_thetaR k m
  rw [intervalIntegral.integral_const_mul, intervalIntegral.integral_eq_sub_of_hasDerivAt d (by apply Continuous.intervalIntegrable; fun_prop)]
  rcases Nat.eq_zero_or_pos m.natAbs with h | h
  · rw [Int.natAbs_eq_zero] at h; subst h; simp
  · simp only [thetaPart_eq, Real.sin_pi, Real.sin_zero, zero_pow h.ne']; ring

theorem dense_sin : Dense {θ : ℝ | Real.sin θ ≠ 0} := by
  have hc : Set.Countable {θ : ℝ | Real.sin θ = 0} := by
    refine (Set.countable_range fun n : ℤ => (n : ℝ) * Real.pi).mono fun θ h => ?_
    obtain ⟨n, hn⟩ := Real.sin_eq_zero_iff.mp h
    exact ⟨n, hn⟩
  exact hc.dense_compl ℝ

/-- The addition theorem for vector harmonics. -/
theorem sum_vec_sq (n : ℕ) (θ : ℝ) :
    ∑ m ∈ Icc (-(n : ℤ)) n, (tPart n m θ ^ 2 + hPart n m θ ^ 2) = n * (n + 1) * (2 * n + 1) / (4 * Real.pi) := by
  have ct := continuous_tPart n
  have ch := continuous_hPart n
  have zero1 : ∀ θ, ∑ m ∈ Icc (-(n : ℤ)) n, thetaPart n m θ * tPart n m θ = 0 := by
    intro θ
    have d : HasDerivAt (fun θ => ∑ m ∈ Icc (-(n : ℤ)) n, thetaPart n m θ ^ 2) (∑ m ∈ Icc (-(n : ℤ)) n, (2 : ℕ) * thetaPart n m θ ^ (2 - 1) * tPart n m θ) θ :=
      HasDerivAt.fun_sum fun m _ => (hasDerivAt_thetaR n m θ).fun_pow 2
    simp only [sum_thetaPart_sq] at d
    have := d.unique (hasDerivAt_const θ _)
    have e : ∑ m ∈ Icc (-(n : ℤ)) n, ((2 : ℕ) : ℝ) * thetaPart n m θ ^ (2 - 1) * tPart n m θ = 2 * ∑ m ∈ Icc (-(n : ℤ)) n, thetaPart n m θ * tPart n m θ := by
      rw [mul_sum]; refine sum_congr rfl fun m _ => ?_
      push_cast; ring
    rw [e] at this
    linarith
  have key : ∀ θ, Real.sin θ * ∑ m ∈ Icc (-(n : ℤ)) n, (tPart n m θ ^ 2 + hPart n m θ ^ 2) = Real.sin θ * (n * (n + 1) * (2 * n + 1) / (4 * Real.pi)) := by
    intro θ
    have d : HasDerivAt (fun θ => ∑ m ∈ Icc (-(n : ℤ)) n, (Real.sin θ * tPart n m θ) * thetaPart n m θ)
        (∑ m ∈ Icc (-(n : ℤ)) n, ((m * hPart n m θ - n * (n + 1) * (Real.sin θ * thetaPart n m θ)) * thetaPart n m θ + (Real.sin θ * tPart n m θ) * tPart n m θ)) θ :=
      HasDerivAt.fun_sum fun m _ => (hasDerivAt_sin_tPart n m θ).fun_mul (hasDerivAt_thetaR n m θ)
    have z : (fun θ => ∑ m ∈ Icc (-(n : ℤ)) n, (Real.sin θ * tPart n m θ) * thetaPart n m θ) = fun _ => 0 := by
      funext θ
      rw [← mul_zero (Real.sin θ), ← zero1 θ, mul_sum]
      exact sum_congr rfl fun m _ => by ring
    rw [z] at d
    have h0 := d.unique (hasDerivAt_const θ _)
    have e : ∀ m ∈ Icc (-(n : ℤ)) n, ((m * hPart n m θ - n * (n + 1) * (Real.sin θ * thetaPart n m θ)) * thetaPart n m θ + (Real.sin θ * tPart n m θ) * tPart n m θ) =
        Real.sin θ * (tPart n m θ ^ 2 + hPart n m θ ^ 2) - Real.sin θ * (n * (n + 1)) * thetaPart n m θ ^ 2 := by
      intro m _
      linear_combination (-hPart n m θ) * sin_hPart n m θ
    rw [sum_congr rfl e, sum_sub_distrib, ← mul_sum, ← mul_sum, sum_thetaPart_sq] at h0
    linear_combination h0
  have heq : (fun θ => ∑ m ∈ Icc (-(n : ℤ)) n, (tPart n m θ ^ 2 + hPart n m θ ^ 2)) = fun _ => (n * (n + 1) * (2 * n + 1) / (4 * Real.pi) : ℝ) := by
    refine Continuous.ext_on dense_sin (by fun_prop) continuous_const fun θ hθ => ?_
    exact mul_left_cancel₀ hθ (key θ)
  exact congrFun heq θ

theorem tconst_neg (n : ℕ) (m : ℤ) (h : 0 < m) : tconst n (-m) = (-1) ^ m.natAbs * tconst n m := by
  unfold tconst
  rw [if_neg (by omega), if_pos h.le, Int.natAbs_neg, ← mul_assoc, ← pow_add, ← two_mul, pow_mul]
  simp

theorem cross_odd (n : ℕ) (m : ℤ) (θ : ℝ) : hPart n (-m) θ * tPart n (-m) θ = -(hPart n m θ * tPart n m θ) := by
  have hc : tconst n (-m) * tconst n (-m) = tconst n m * tconst n m := by
    have sq1 : ∀ k : ℕ, ((-1 : ℝ) ^ k) * (-1) ^ k = 1 := fun k => by rw [← pow_add, ← two_mul, pow_mul]; simp
    rcases lt_trichotomy m 0 with h | h | h
    · have := tconst_neg n (-m) (by omega)
      rw [neg_neg, Int.natAbs_neg] at this
      rw [this]
      linear_combination (-(tconst n (-m) * tconst n (-m))) * sq1 m.natAbs
    · subst h; simp
    · rw [tconst_neg n m h]
      linear_combination (tconst n m * tconst n m) * sq1 m.natAbs
  unfold hPart tPart
  rw [Int.natAbs_neg]
  push_cast
  generalize tconst n (-m) = a at *
  generalize tconst n m = b at *
  generalize (Real.sin θ ^ (m.natAbs - 1) * (legD n m.natAbs).eval (Real.cos θ)) = A
  generalize hB : ((m.natAbs : ℝ) * Real.sin θ ^ (m.natAbs - 1) * Real.cos θ * (legD n m.natAbs).eval (Real.cos θ) -
    Real.sin θ ^ (m.natAbs + 1) * (legD n (m.natAbs + 1)).eval (Real.cos θ)) = B
  linear_combination (-(m : ℝ) * A * B) * hc

end Verif
