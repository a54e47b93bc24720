import Verif.Math.Ortho
import Verif.Math.Theta
/-!
# The addition theorem on the diagonal: `Σ_{|m|≤n} |Y_nm(θ,φ)|² = (2n+1)/(4π)`
-/
namespace Verif
open Polynomial Finset

/-- `(n-m)!/(n+m)!`. -/
noncomputable def wfac (n m : ℕ) : ℝ := ((n - m).factorial : ℝ) / (n + m).factorial

theorem wfac_succ (n m : ℕ) (h : m + 1 ≤ n) : wfac n (m + 1) * (((n : ℝ) - m) * (n + m + 1)) = wfac n m := by
  unfold wfac
  obtain ⟨k, rfl⟩ := Nat.exists_eq_add_of_le h
  have e1 : m + 1 + k - (m + 1) = k := by omega
  have e2 : m + 1 + k - m = k + 1 := by omega
  have e3 : m + 1 + k + (m + 1) = (m + 1 + k + m) + 1 := by omega
  rw [e1, e2, e3, Nat.factorial_succ, Nat.factorial_succ]
  have h2 : ((m + 1 + k + m).factorial : ℝ) ≠ 0 := by exact_mod_cast (Nat.factorial_pos _).ne'
  push_cast
  have h3 : (m + 1 + (k : ℝ) + m + 1) ≠ 0 := by positivity
  field_simp
  ring

/-- One term of the sum, as a polynomial in `cos θ`. -/
noncomputable def addT (n m : ℕ) : ℝ[X] := C (wfac n m) * ((1 - X ^ 2) ^ m * legD n m * legD n m)

noncomputable def addU (n m : ℕ) : ℝ[X] := C (wfac n m) * ((1 - X ^ 2) ^ m * legD n m * legD n (m + 1))

noncomputable def addQ (n k : ℕ) : ℝ[X] := addT n 0 + 2 * ∑ m ∈ range k, addT n (m + 1)

theorem derivative_addT_zero (n : ℕ) : derivative (addT n 0) = 2 * addU n 0 := by
  unfold addT addU
  simp only [derivative_mul, derivative_C, pow_zero, derivative_one, zero_mul, zero_add, one_mul, derivative_legD]
  ring

theorem derivative_addT_succ (n m : ℕ) (h : m + 1 ≤ n) : derivative (addT n (m + 1)) = addU n (m + 1) - addU n m := by
  unfold addT addU
  have ode := legD_ode n m
  rw [← wfac_succ n m h]
  simp only [derivative_mul, derivative_C, zero_mul, zero_add, derivative_legD, derivative_pow_succ, derivative_sub, derivative_one, derivative_X, zero_sub, mul_one]
  simp only [map_mul, map_add, map_sub, map_natCast, map_one] at ode ⊢
  simp only [map_ofNat, Nat.cast_add, Nat.cast_one] at ode ⊢
  linear_combination (C (wfac n (m + 1)) * (1 - X ^ 2) ^ m * legD n (m + 1)) * ode

theorem derivative_addQ (n k : ℕ) (h : k ≤ n) : derivative (addQ n k) = 2 * addU n k := by
  induction k with
  | zero => unfold addQ; simp [derivative_addT_zero]
  | succ k ih =>
    have : addQ n (k + 1) = addQ n k + 2 * addT n (k + 1) := by unfold addQ; rw [sum_range_succ]; ring
    rw [this, derivative_add, ih (by omega), derivative_mul, derivative_addT_succ n k h]
    simp
    ring

theorem addU_self (n : ℕ) : addU n n = 0 := by
  unfold addU; rw [Trig.legD_eq_zero n (n + 1) (by omega)]; simp

theorem Lam_addT (n m : ℕ) (h : m ≤ n) : Lam (addT n m) = 2 / (2 * n + 1) := by
  unfold addT
  rw [Lam_C_mul]
  change _ * legB m n n = _
  rw [legB_self m n h]
  unfold wfac
  have h1 : ((n - m).factorial : ℝ) ≠ 0 := by exact_mod_cast (Nat.factorial_pos _).ne'
  have h2 : ((n + m).factorial : ℝ) ≠ 0 := by exact_mod_cast (Nat.factorial_pos _).ne'
  have h3 : (2 * (n : ℝ) + 1) ≠ 0 := by positivity
  field_simp

theorem Lam_addQ (n k : ℕ) (h : k ≤ n) : Lam (addQ n k) = 2 * (2 * k + 1) / (2 * n + 1) := by
  induction k with
  | zero => unfold addQ; simp [Lam_addT n 0 (by omega)]
  | succ k ih =>
    have : addQ n (k + 1) = addQ n k + C 2 * addT n (k + 1) := by
      unfold addQ; rw [sum_range_succ]; simp only [map_ofNat]; ring
    rw [this, Lam_add, Lam_C_mul, ih (by omega), Lam_addT n (k + 1) h]
    push_cast
    ring

theorem addQ_self (n : ℕ) : addQ n n = 1 := by
  have hd : derivative (addQ n n) = 0 := by rw [derivative_addQ n n le_rfl, addU_self, mul_zero]
  have hc := eq_C_of_natDegree_eq_zero (derivative_eq_zero.mp hd)
  have hL := Lam_addQ n n le_rfl
  have h3 : (2 * (n : ℝ) + 1) ≠ 0 := by positivity
  rw [mul_div_assoc, div_self h3, mul_one, hc] at hL
  have : Lam (C ((addQ n n).coeff 0)) = 2 * (addQ n n).coeff 0 := by
    unfold Lam; simp only [eval_C, intervalIntegral.integral_const, smul_eq_mul]; ring
  rw [this] at hL
  rw [hc, show (addQ n n).coeff 0 = 1 by linarith, map_one]

theorem sum_Icc_even (n : ℕ) (f : ℤ → ℝ) (h : ∀ k, f (-k) = f k) :
    ∑ m ∈ Icc (-(n : ℤ)) n, f m = f 0 + 2 * ∑ k ∈ range n, f ((k + 1 : ℕ) : ℤ) := by
  induction n with
  | zero => simp
  | succ n ih =>
    have e : Icc (-((n + 1 : ℕ) : ℤ)) ((n + 1 : ℕ) : ℤ) = insert (-((n + 1 : ℕ) : ℤ)) (insert ((n + 1 : ℕ) : ℤ) (Icc (-(n : ℤ)) n)) := by
      ext k; simp only [mem_Icc, mem_insert]; push_cast; omega
    rw [e, sum_insert (by simp only [mem_insert, mem_Icc]; push_cast; omega), sum_insert (by simp only [mem_Icc]; push_cast; omega), ih, h, sum_range_succ]
    ring

/-- The addition theorem on the diagonal. -/
theorem sum_thetaPart_sq (n : ℕ) (θ : ℝ) : ∑ m ∈ Icc (-(n : ℤ)) n, thetaPart n m θ ^ 2 = (2 * n + 1) / (4 * Real.pi) := by
  have key : ∀ m : ℤ, m.natAbs ≤ n → thetaPart n m θ ^ 2 = (2 * n + 1) / (4 * Real.pi) * (addT n m.natAbs).eval (Real.cos θ) := by
    intro m hm
    have hsgn : ((if 0 ≤ m then (-1 : ℝ) ^ m.natAbs else 1)) ^ 2 = 1 := by
      split
      · rw [← pow_mul, mul_comm, pow_mul]; simp
      · simp
    unfold thetaPart addT
    have e1 : derivative^[m.natAbs] (legendre n) = legD n m.natAbs := rfl
    rw [e1, mul_pow, mul_pow, hsgn, mul_pow]
    simp only [eval_mul, eval_pow, eval_sub, eval_one, eval_X, eval_C]
    rw [show (1 - Real.cos θ ^ 2) = Real.sin θ ^ 2 by rw [Real.sin_sq]]
    unfold normSH wfac
    rw [Real.sq_sqrt (by positivity)]
    ring
  have h2 := congrArg (fun p : ℝ[X] => p.eval (Real.cos θ)) (addQ_self n)
  unfold addQ at h2
  simp only [eval_add, eval_mul, eval_finsetSum, eval_one] at h2
  rw [show ((2 : ℝ[X]).eval (Real.cos θ)) = 2 by simp] at h2
  have h3 : ∑ m ∈ Icc (-(n : ℤ)) n, thetaPart n m θ ^ 2 =
      ∑ m ∈ Icc (-(n : ℤ)) n, (2 * n + 1) / (4 * Real.pi) * (addT n m.natAbs).eval (Real.cos θ) :=
    sum_congr rfl fun m hm => key m (by rw [mem_Icc] at hm; omega)
  rw [h3, ← mul_sum, sum_Icc_even n (fun m => (addT n m.natAbs).eval (Real.cos θ)) (fun k => by rw [Int.natAbs_neg])]
  simp only [Int.natAbs_zero, Int.natAbs_natCast]
  rw [h2, mul_one]

end Verif
