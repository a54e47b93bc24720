import Verif.Math.Theta
import Verif.SpecSH
import Mathlib.Analysis.SpecialFunctions.Integrals.Basic
import Mathlib.Analysis.Calculus.Deriv.Polynomial
import Mathlib.Topology.Algebra.Polynomial
import Mathlib.MeasureTheory.Integral.IntervalIntegral.FundThmCalculus
import Mathlib.MeasureTheory.Integral.IntervalIntegral.IntegrationByParts
/-!
# Orthonormality of the θ-parts of the spherical harmonics
-/
namespace Verif
open Polynomial

/-- `∫_{-1}^{1} p(x) dx`. -/
noncomputable def Lam (p : ℝ[X]) : ℝ := ∫ x in (-1 : ℝ)..1, p.eval x

theorem Lam_derivative (p : ℝ[X]) : Lam (derivative p) = p.eval 1 - p.eval (-1) := by
  unfold Lam
  refine intervalIntegral.integral_eq_sub_of_hasDerivAt (fun x _ => p.hasDerivAt x) ?_
  exact (derivative p).continuous.intervalIntegrable _ _

theorem poly_ii (p : ℝ[X]) (a b : ℝ) : IntervalIntegrable (fun x => p.eval x) MeasureTheory.volume a b :=
  p.continuous.intervalIntegrable a b

theorem Lam_add (p q : ℝ[X]) : Lam (p + q) = Lam p + Lam q := by
  unfold Lam
  simp only [eval_add]
  exact intervalIntegral.integral_add (poly_ii p _ _) (poly_ii q _ _)

theorem Lam_C_mul (a : ℝ) (p : ℝ[X]) : Lam (C a * p) = a * Lam p := by
  unfold Lam
  simp only [eval_mul, eval_C]
  exact intervalIntegral.integral_const_mul a _

theorem Lam_sub (p q : ℝ[X]) : Lam (p - q) = Lam p - Lam q := by
  have : p - q = p + C (-1) * q := by simp [sub_eq_add_neg]
  rw [this, Lam_add, Lam_C_mul]; ring

/-- Integration by parts. -/
theorem Lam_parts (p q : ℝ[X]) (h1 : p.eval 1 = 0) (h2 : p.eval (-1) = 0) :
    Lam (derivative p * q) = - Lam (p * derivative q) := by
  have h := Lam_derivative (p * q)
  rw [derivative_mul, Lam_add] at h
  simp only [eval_mul, h1, h2, zero_mul, sub_zero] at h
  linarith

/-- `∫ (1-x²)^m (D^m P_n)(D^m P_k)`. -/
noncomputable def legB (m n k : ℕ) : ℝ := Lam ((1 - X ^ 2) ^ m * legD n m * legD k m)

theorem legB_comm (m n k : ℕ) : legB m n k = legB m k n := by
  unfold legB; congr 1; ring

theorem legB_succ (m n k : ℕ) : legB (m + 1) n k = ((k : ℝ) - m) * (k + m + 1) * legB m n k := by
  have h := Lam_derivative ((1 - X ^ 2) ^ (m + 1) * legD n m * legD k (m + 1))
  have hz1 : ((1 - X ^ 2) ^ (m + 1) * legD n m * legD k (m + 1) : ℝ[X]).eval 1 = 0 := by simp
  have hz2 : ((1 - X ^ 2) ^ (m + 1) * legD n m * legD k (m + 1) : ℝ[X]).eval (-1) = 0 := by simp
  rw [hz1, hz2] at h
  have e : derivative ((1 - X ^ 2) ^ (m + 1) * legD n m * legD k (m + 1)) =
      (1 - X ^ 2) ^ (m + 1) * legD n (m + 1) * legD k (m + 1) -
        C (((k : ℝ) - m) * (k + m + 1)) * ((1 - X ^ 2) ^ m * legD n m * legD k m) := by
    rw [derivative_mul, derivative_mul, derivative_legD, derivative_legD, derivative_pow_succ]
    simp only [derivative_sub, derivative_X_sq, derivative_one, zero_sub]
    have o := legD_ode k m
    simp only [map_sub, map_mul, map_add, map_natCast, map_one] at o ⊢
    simp only [map_ofNat] at o ⊢
    rw [pow_succ]
    linear_combination ((1 - X ^ 2) ^ m * legD n m) * o
  rw [e, Lam_sub, Lam_C_mul] at h
  unfold legB
  linarith

theorem legB_zero_ne (n k : ℕ) (h : n ≠ k) : legB 0 n k = 0 := by
  have h1 := legB_succ 0 n k
  have h2 := legB_succ 0 k n
  rw [legB_comm 1 k n, legB_comm 0 k n] at h2
  simp only [zero_add] at h1 h2
  rw [h1] at h2
  simp only [Nat.cast_zero, sub_zero, add_zero] at h2
  have : ((k : ℝ) - n) * (k + n + 1) * legB 0 n k = 0 := by linear_combination h2
  have d1 : (k : ℝ) - n ≠ 0 := by
    intro h0; apply h; exact_mod_cast (sub_eq_zero.mp h0).symm
  have d2 : (k : ℝ) + n + 1 ≠ 0 := by positivity
  rcases mul_eq_zero.mp this with h0 | h0
  · exact absurd h0 (mul_ne_zero d1 d2)
  · exact h0

theorem legB_ne (m n k : ℕ) (h : n ≠ k) : legB m n k = 0 := by
  induction m with
  | zero => exact legB_zero_ne n k h
  | succ m ih => rw [legB_succ, ih, mul_zero]

/-! ### The norm -/

theorem rodU_vanish (n j : ℕ) (h : j < n) (x : ℝ) (hx : x ^ 2 = 1) : (derivative^[j] (rodU n)).eval x = 0 := by
  have h1 : (X ^ 2 - 1 : ℝ[X]) ^ (n - j) ∣ derivative^[j] (rodU n) :=
    pow_sub_dvd_iterate_derivative_of_pow_dvd j (dvd_refl _)
  obtain ⟨q, hq⟩ := h1
  rw [hq, eval_mul, eval_pow]
  simp [hx, show n - j ≠ 0 by omega]

theorem Lam_rod (n j : ℕ) (h : j ≤ n) (q : ℝ[X]) :
    Lam (derivative^[j] (rodU n) * q) = (-1) ^ j * Lam (rodU n * derivative^[j] q) := by
  induction j generalizing q with
  | zero => simp
  | succ j ih =>
    rw [Function.iterate_succ_apply', Lam_parts _ _ (rodU_vanish n j (by omega) 1 (by norm_num))
      (rodU_vanish n j (by omega) (-1) (by norm_num)), ih (by omega), Function.iterate_succ_apply, pow_succ]
    ring

theorem Lam_one_sub_sq (n : ℕ) : Lam ((1 - X ^ 2) ^ n) = 2 ^ (2 * n + 1) * (n.factorial : ℝ) ^ 2 / (2 * n + 1).factorial := by
  induction n with
  | zero =>
    unfold Lam
    simp; norm_num
  | succ n ih =>
    have h := Lam_derivative (X * (1 - X ^ 2) ^ (n + 1))
    have e : derivative (X * (1 - X ^ 2) ^ (n + 1) : ℝ[X]) =
        C ((2 * n + 3 : ℝ)) * (1 - X ^ 2) ^ (n + 1) - C (2 * (n + 1 : ℝ)) * (1 - X ^ 2) ^ n := by
      rw [derivative_mul, derivative_pow_succ]
      simp only [derivative_X, derivative_sub, derivative_X_sq, derivative_one, zero_sub]
      simp only [map_mul, map_add, map_natCast, map_one]
      simp only [map_ofNat]
      ring
    rw [e, Lam_sub, Lam_C_mul, Lam_C_mul, ih] at h
    simp only [eval_mul, eval_X, eval_pow, eval_sub, eval_one, one_pow, sub_self, ne_eq, Nat.add_eq_zero_iff,
      one_ne_zero, and_false, not_false_eq_true, zero_pow, mul_zero, even_two, Even.neg_pow] at h
    have d : (2 * (n : ℝ) + 3) ≠ 0 := by positivity
    have : Lam ((1 - X ^ 2) ^ (n + 1)) = (2 * (n + 1 : ℝ)) / (2 * n + 3) *
        (2 ^ (2 * n + 1) * (n.factorial : ℝ) ^ 2 / (2 * n + 1).factorial) := by
      field_simp
      field_simp at h
      linarith
    rw [this, show 2 * (n + 1) + 1 = (2 * n + 1) + 1 + 1 by ring, Nat.factorial_succ (2 * n + 1 + 1),
      Nat.factorial_succ (2 * n + 1), Nat.factorial_succ n]
    have h1 : ((2 * n + 1).factorial : ℝ) ≠ 0 := by exact_mod_cast (Nat.factorial_pos _).ne'
    push_cast
    have h2 : (2 * (n : ℝ) + 1 + 1) ≠ 0 := by positivity
    have h3 : (2 * (n : ℝ) + 1 + 1 + 1) ≠ 0 := by positivity
    field_simp
    ring

theorem legB_zero_self (n : ℕ) : legB 0 n n = 2 / (2 * n + 1) := by
  have hn : (n.factorial : ℝ) ≠ 0 := by exact_mod_cast (Nat.factorial_pos _).ne'
  have hc : legD n n = C (((2 * n).factorial : ℝ) / (2 ^ n * n.factorial)) := by
    have h1 := Trig.legD_natDegree n n
    rw [Nat.sub_self] at h1
    have h2 := Trig.legD_lead n n le_rfl
    rw [Nat.sub_self] at h2
    rw [eq_C_of_natDegree_le_zero h1, h2]
    simp
  have e : legB 0 n n = 1 / (2 ^ n * (n.factorial : ℝ)) * Lam (derivative^[n] (rodU n) * legendre n) := by
    unfold legB
    rw [← Lam_C_mul]
    congr 1
    unfold legD
    simp only [pow_zero, one_mul, Function.iterate_zero, id]
    conv_lhs => enter [1]; rw [legendre]
    ring
  rw [e, Lam_rod n n le_rfl]
  have e2 : derivative^[n] (legendre n) = legD n n := rfl
  rw [e2, hc, mul_comm (rodU n), Lam_C_mul]
  have e3 : rodU n = C ((-1) ^ n) * (1 - X ^ 2) ^ n := by
    unfold rodU
    rw [show (X ^ 2 - 1 : ℝ[X]) = C (-1) * (1 - X ^ 2) by simp, mul_pow, map_pow]
  rw [e3, Lam_C_mul, Lam_one_sub_sq, Nat.factorial_succ]
  have h4 : ((-1 : ℝ) ^ n) * (-1) ^ n = 1 := by rw [← mul_pow]; simp
  have h5 : ((2 * n).factorial : ℝ) ≠ 0 := by exact_mod_cast (Nat.factorial_pos _).ne'
  push_cast
  rw [show 2 ^ (2 * n + 1) = 2 * 2 ^ n * (2 : ℝ) ^ n by rw [pow_succ, two_mul n, pow_add]; ring]
  have h6 : (2 * (n : ℝ) + 1) ≠ 0 := by positivity
  field_simp
  linear_combination h4

theorem legB_self (m n : ℕ) (h : m ≤ n) :
    legB m n n = (n + m).factorial / (n - m).factorial * (2 / (2 * n + 1)) := by
  induction m with
  | zero =>
    have hn : (n.factorial : ℝ) ≠ 0 := by exact_mod_cast (Nat.factorial_pos _).ne'
    rw [legB_zero_self]; simp [div_self hn]
  | succ m ih =>
    rw [legB_succ, ih (by omega), show n + (m + 1) = (n + m) + 1 by ring, Nat.factorial_succ (n + m)]
    obtain ⟨r, hr⟩ : ∃ r, n - m = r + 1 := ⟨n - m - 1, by omega⟩
    rw [hr, show n - (m + 1) = r by omega, Nat.factorial_succ r]
    have h1 : (r.factorial : ℝ) ≠ 0 := by exact_mod_cast (Nat.factorial_pos _).ne'
    have h2 : (n : ℝ) - m = r + 1 := by
      have : n = m + r + 1 := by omega
      rw [this]; push_cast; ring
    rw [h2]
    push_cast
    have h3 : (2 * (n : ℝ) + 1) ≠ 0 := by positivity
    have h4 : (r : ℝ) + 1 ≠ 0 := by positivity
    field_simp

/-- Change of variable `x = cos θ`. -/
theorem integral_cos (p : ℝ[X]) : ∫ θ in (0 : ℝ)..Real.pi, p.eval (Real.cos θ) * Real.sin θ = Lam p := by
  have h := intervalIntegral.integral_comp_mul_deriv (a := 0) (b := Real.pi) (f := Real.cos)
    (f' := fun θ => -Real.sin θ) (g := fun x => p.eval x) (fun x _ => Real.hasDerivAt_cos x)
    (Real.continuous_sin.neg.continuousOn) p.continuous
  simp only [Function.comp, Real.cos_zero, Real.cos_pi] at h
  unfold Lam
  rw [intervalIntegral.integral_symm (1 : ℝ), ← h, ← intervalIntegral.integral_neg]
  simp

/-- Orthonormality in `θ` (the factor `2π` comes from the `φ` integral). -/
theorem thetaPart_ortho (n k : ℕ) (m : ℤ) (hn : m.natAbs ≤ n) (hk : m.natAbs ≤ k) :
    ∫ θ in (0 : ℝ)..Real.pi, thetaPart n m θ * thetaPart k m θ * Real.sin θ =
      if n = k then 1 / (2 * Real.pi) else 0 := by
  obtain ⟨p, hp⟩ : ∃ p, p = m.natAbs := ⟨_, rfl⟩
  have hsgn : (if 0 ≤ m then (-1 : ℝ) ^ p else 1) * (if 0 ≤ m then (-1 : ℝ) ^ p else 1) = 1 := by
    split
    · rw [← mul_pow]; simp
    · simp
  have e : ∀ θ, thetaPart n m θ * thetaPart k m θ * Real.sin θ =
      (normSH n p * normSH k p) * (((1 - X ^ 2) ^ p * legD n p * legD k p : ℝ[X]).eval (Real.cos θ) * Real.sin θ) := by
    intro θ
    unfold thetaPart
    rw [← hp]
    have e1 : derivative^[p] (legendre n) = legD n p := rfl
    have e2 : derivative^[p] (legendre k) = legD k p := rfl
    rw [e1, e2]
    simp only [eval_mul, eval_pow, eval_sub, eval_one, eval_X]
    have : (1 - Real.cos θ ^ 2) = Real.sin θ * Real.sin θ := by rw [← sq, Real.sin_sq]
    rw [this, mul_pow]
    linear_combination (normSH n p * normSH k p * (Real.sin θ ^ p * (legD n p).eval (Real.cos θ)) *
      (Real.sin θ ^ p * (legD k p).eval (Real.cos θ)) * Real.sin θ) * hsgn
  simp_rw [e]
  rw [intervalIntegral.integral_const_mul, integral_cos]
  change _ * legB p n k = _
  by_cases h : n = k
  · subst h
    rw [if_pos rfl, legB_self p n (by omega)]
    unfold normSH
    rw [Real.mul_self_sqrt (by positivity)]
    have h1 : ((n - p).factorial : ℝ) ≠ 0 := by exact_mod_cast (Nat.factorial_pos _).ne'
    have h2 : ((n + p).factorial : ℝ) ≠ 0 := by exact_mod_cast (Nat.factorial_pos _).ne'
    have h3 : (2 * (n : ℝ) + 1) ≠ 0 := by positivity
    field_simp
    norm_num
  · rw [if_neg h, legB_ne p n k h, mul_zero]

end Verif
