import Verif.Math.Rotation
import Mathlib.Algebra.Polynomial.SumIteratedDerivative
/-!
# The addition theorem: `Σ_{|m|≤n} Y_nm(x) conj Y_nm(y) = (2n+1)/(4π) P_n(x·y)`
-/
namespace Verif.Rot
open Polynomial Finset

theorem legendre_eval_one (n : ℕ) : (legendre n).eval 1 = 1 := by
  have h : (rodU n).map (algebraMap ℝ ℝ) = (X - C (1 : ℝ)) ^ n * (X + 1) ^ n := by
    unfold rodU
    rw [Algebra.algebraMap_self, Polynomial.map_id, ← mul_pow]
    congr 1
    rw [map_one]; ring
  have k := aeval_iterate_derivative_self (rodU n) n (1 : ℝ) h
  rw [coe_aeval_eq_eval] at k
  unfold legendre
  rw [eval_mul, eval_C, k]
  simp only [eval_pow, eval_add, eval_X, eval_one, nsmul_eq_mul]
  have : (n.factorial : ℝ) ≠ 0 := by exact_mod_cast n.factorial_ne_zero
  field_simp
  norm_num

theorem normSH_zero_sq (n : ℕ) : normSH n 0 * normSH n 0 = (2 * n + 1) / (4 * Real.pi) := by
  unfold normSH
  have hp := Real.pi_pos
  rw [Real.mul_self_sqrt (by positivity)]
  have : (n.factorial : ℝ) ≠ 0 := by exact_mod_cast n.factorial_ne_zero
  simp [this]

/-- The harmonic of order 0. -/
theorem Yv_zero (n : ℕ) (v : Fin 3 → ℝ) : Yv n 0 v = ((normSH n 0 * (legendre n).eval (v 2) : ℝ) : ℂ) := by
  unfold Yv
  have := tconst_nat n 0
  simp only [Nat.cast_zero, pow_zero, one_mul] at this
  rw [this]
  simp [legD]

theorem Yv_pole (n : ℕ) (m : ℤ) : Yv n m ![0, 0, 1] = if m = 0 then ((normSH n 0 : ℝ) : ℂ) else 0 := by
  split
  · next h =>
    subst h
    rw [Yv_zero]
    simp [legendre_eval_one]
  · next h =>
    unfold Yv
    have h0 : m.natAbs ≠ 0 := by omega
    simp [h0]

/-- The addition theorem. -/
theorem addition (n : ℕ) (x y : Fin 3 → ℝ) (hx : Unit3 x) (hy : Unit3 y) :
    ∑ m ∈ Icc (-(n : ℤ)) n, Yv n m x * (starRingEnd ℂ) (Yv n m y) = (((2 * n + 1) / (4 * Real.pi) * (legendre n).eval (x ⬝ᵥ y) : ℝ) : ℂ) := by
  obtain ⟨θ, φ, rfl⟩ := sphere_angles y hy
  set Q := Rz φ * Ry (-θ) with hQdef
  have hQ : Orth Q := (orth_Rz φ).mul (orth_Ry (-θ))
  have hy' : Q.mulVec ![0, 0, 1] = pt θ φ := by
    rw [hQdef]
    unfold Rz Ry pt
    funext i
    fin_cases i <;> simp [Matrix.mulVec, dotProduct, Matrix.mul_apply, Fin.sum_univ_three] <;> ring
  have hQ' : Q * Q.transpose = 1 := mul_eq_one_comm.mp hQ
  set x' := Q.transpose.mulVec x with hx'
  have hxx : x = Q.mulVec x' := by rw [hx', Matrix.mulVec_mulVec, hQ', Matrix.one_mulVec]
  have ux' : Unit3 x' := hQ.transpose.unit hx
  have ue : Unit3 ![0, 0, 1] := by unfold Unit3; simp
  have hz : x ⬝ᵥ pt θ φ = x' 2 := by
    rw [← hy', Matrix.dotProduct_mulVec, hx', ← Matrix.mulVec_transpose]
    simp [dotProduct, Fin.sum_univ_three]
  obtain ⟨D, hD, h⟩ := rotates_orth n Q hQ
  rw [← sum_ords n (fun m => Yv n m x * (starRingEnd ℂ) (Yv n m (pt θ φ))), hz]
  have z0 : (0 : ℤ) ∈ Icc (-(n : ℤ)) n := by rw [mem_Icc]; omega
  have e1 : ∀ m : Ords n, Yv n m (pt θ φ) = D m ⟨0, z0⟩ * ((normSH n 0 : ℝ) : ℂ) := fun m => by
    rw [← hy', h _ ue m, Finset.sum_eq_single (⟨0, z0⟩ : Ords n) (fun k _ hk => ?_) (fun hk => absurd (mem_univ _) hk)]
    · rw [Yv_pole, if_pos rfl]
    · rw [Yv_pole, if_neg (fun hk0 => hk (Subtype.ext hk0)), mul_zero]
  have e2 : ∀ m : Ords n, Yv n m x = ∑ k, D m k * Yv n k x' := fun m => by rw [hxx, h _ ux' m]
  have e3 : ∀ k : Ords n, ∑ m, (starRingEnd ℂ) (D m ⟨0, z0⟩) * D m k = if (⟨0, z0⟩ : Ords n) = k then 1 else 0 := fun k => by
    have := congrFun (congrFun hD ⟨0, z0⟩) k
    rw [Matrix.mul_apply, Matrix.one_apply] at this
    rw [← this]
    exact Finset.sum_congr rfl fun m _ => by rw [Matrix.conjTranspose_apply, Complex.star_def]
  simp only [e1, e2, map_mul, Complex.conj_ofReal, Finset.sum_mul]
  rw [Finset.sum_comm]
  have e4 : ∀ k : Ords n, ∑ m, D m k * Yv n k x' * ((starRingEnd ℂ) (D m ⟨0, z0⟩) * ((normSH n 0 : ℝ) : ℂ)) =
      if (⟨0, z0⟩ : Ords n) = k then Yv n k x' * ((normSH n 0 : ℝ) : ℂ) else 0 := fun k => by
    rw [show (if (⟨0, z0⟩ : Ords n) = k then Yv n k x' * ((normSH n 0 : ℝ) : ℂ) else 0) =
      Yv n k x' * ((normSH n 0 : ℝ) : ℂ) * (if (⟨0, z0⟩ : Ords n) = k then 1 else 0) by split <;> simp, ← e3 k, Finset.mul_sum]
    exact Finset.sum_congr rfl fun m _ => by ring
  rw [Finset.sum_congr rfl fun k _ => e4 k, Finset.sum_ite_eq, if_pos (mem_univ _)]
  show Yv n 0 x' * _ = _
  rw [Yv_zero, ← normSH_zero_sq]
  push_cast; ring

end Verif.Rot
