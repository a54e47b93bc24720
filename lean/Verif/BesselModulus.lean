import Verif.BesselMath
import Mathlib.Algebra.BigOperators.Ring.Finset
import Mathlib.Algebra.Order.BigOperators.Ring.Finset
import Mathlib.Tactic.FieldSimp
import Mathlib.Tactic.LinearCombination
/-!
# The modulus of the spherical Hankel functions

`x² (j_n² + y_n²) = Σ_k C_k (n+k)!/(n-k)! x^(-2k)`, `C_k = (2k)!/(4^k k!²)`, hence the modulus grows with the order.
-/
namespace Verif
open Finset

/-- `(n+k)!/(n-k)!`. -/
noncomputable def modF (n : ℝ) : ℕ → ℝ
  | 0 => 1
  | k + 1 => modF n k * ((n - k) * (n + 1 + k))

/-- `(2k)!/(4^k k!²)`. -/
noncomputable def modC : ℕ → ℝ
  | 0 => 1
  | k + 1 => modC k * ((2 * k + 1) / (2 * k + 2))

theorem modC_pos (k : ℕ) : 0 < modC k := by
  induction k with
  | zero => simp [modC]
  | succ k ih => rw [modC]; positivity

theorem modF_up (n : ℝ) (k : ℕ) : modF (n + 1) k * (n + 1 - k) = modF n k * (n + 1 + k) := by
  induction k with
  | zero => simp [modF]
  | succ k ih =>
    rw [modF, modF]
    push_cast
    linear_combination (n + 2 + k) * (n - k) * ih

theorem modF_two (n : ℝ) (k : ℕ) : modF (n + 1) (k + 1) - modF (n - 1) (k + 1) = modF n k * ((2 * n + 1) * (2 * k + 2)) := by
  have a := modF_up n k
  have b := modF_up (n - 1) k
  rw [show n - 1 + 1 = n by ring] at b
  rw [modF, modF]
  linear_combination (n + 2 + k) * a + (n - 1 - k) * b

theorem modF_nat (n k : ℕ) (h : n < k) : modF n k = 0 := by
  induction k with
  | zero => omega
  | succ k ih =>
    rw [modF]
    rcases (show n ≤ k by omega).eq_or_lt with h | h
    · rw [h]; ring
    · rw [ih h]; ring

theorem modF_nonneg (n k : ℕ) : 0 ≤ modF n k := by
  induction k with
  | zero => simp [modF]
  | succ k ih =>
    by_cases h : n < k
    · rw [modF_nat n (k + 1) (by omega)]
    · have : (k : ℝ) ≤ n := by exact_mod_cast (not_lt.1 h)
      rw [modF]
      exact mul_nonneg ih (mul_nonneg (by linarith) (by positivity))

theorem modF_mono (n k : ℕ) : modF n k ≤ modF (n + 1 : ℕ) k := by
  induction k with
  | zero => simp [modF]
  | succ k ih =>
    by_cases h : n < k
    · rw [modF_nat n (k + 1) (by omega)]; exact modF_nonneg _ _
    · have : (k : ℝ) ≤ n := by exact_mod_cast (not_lt.1 h)
      rw [modF, modF]
      push_cast at ih ⊢
      have := modF_nonneg n k
      have h2 : ((n : ℝ) - k) * (n + 1 + k) ≤ (n + 1 - k) * (n + 1 + 1 + k) := mul_le_mul (by linarith) (by linarith) (by positivity) (by linarith)
      exact mul_le_mul ih h2 (mul_nonneg (by linarith) (by positivity)) (this.trans ih)

/-- `x² (j_n² + y_n²)` as a sum, with any number of terms beyond `n`. -/
noncomputable def modM (K n : ℕ) (x : ℝ) : ℝ := ∑ k ∈ range K, modC k * modF n k * (1 / x) ^ (2 * k)
/-- `x² (j_n j_{n-1} + y_n y_{n-1})`. -/
noncomputable def modX (K n : ℕ) (x : ℝ) : ℝ := ∑ k ∈ range K, modC k * modF n k * (n - k) * (1 / x) ^ (2 * k + 1)

theorem modX_up (K n : ℕ) (x : ℝ) : modX K (n + 1) x + modX K n x = (2 * n + 1) / x * modM K n x := by
  unfold modX modM
  rw [← sum_add_distrib, mul_sum]
  refine sum_congr rfl fun k _ => ?_
  have := modF_up (n : ℝ) k
  push_cast
  rw [mul_assoc (modC k) (modF (n + 1 : ℝ) k), this, pow_succ]
  ring

theorem modM_up (K n : ℕ) (hn : 1 ≤ n) (x : ℝ) : modM (K + 1) (n + 1) x - modM (K + 1) (n - 1) x = (2 * n + 1) / x * (modX K (n + 1) x - modX K n x) := by
  unfold modX modM
  rw [sum_range_succ', sum_range_succ', ← sum_sub_distrib, mul_sum, add_sub_add_comm, ← sum_sub_distrib]
  simp only [modC, modF, mul_zero, pow_zero, mul_one, sub_self, add_zero]
  refine sum_congr rfl fun k _ => ?_
  have a := modF_up (n : ℝ) k
  have b := modF_two (n : ℝ) k
  rw [modF, modF] at b
  rw [show ((n - 1 : ℕ) : ℝ) = n - 1 by rw [Nat.cast_sub hn, Nat.cast_one]]
  push_cast
  rw [show 2 * (k + 1) = 2 * k + 1 + 1 by ring, pow_succ (1 / x) (2 * k + 1)]
  have c : (2 * (k : ℝ) + 2) ≠ 0 := by positivity
  generalize hp : (1 / x) ^ (2 * k + 1) = p
  have lhs : modC k * ((2 * k + 1) / (2 * k + 2)) * (modF (n + 1 : ℝ) k * ((n + 1 - k) * (n + 1 + 1 + k))) * (p * (1 / x)) -
      modC k * ((2 * k + 1) / (2 * k + 2)) * (modF (n - 1 : ℝ) k * ((n - 1 - k) * (n - 1 + 1 + k))) * (p * (1 / x)) =
      modC k * ((2 * k + 1) / (2 * k + 2)) * (p * (1 / x)) * (modF (n : ℝ) k * ((2 * n + 1) * (2 * k + 2))) := by
    rw [← b]; ring
  rw [lhs]
  have e : modC k * ((2 * k + 1) / (2 * k + 2)) * (p * (1 / x)) * (modF (n : ℝ) k * ((2 * n + 1) * (2 * k + 2))) =
      modC k * (2 * k + 1) * (p * (1 / x)) * (modF (n : ℝ) k * (2 * n + 1)) := by field_simp
  rw [e]
  linear_combination (-(modC k * p * (2 * n + 1) * (1 / x))) * a

theorem modX_more (K n : ℕ) (h : n ≤ K) (x : ℝ) : modX (K + 1) n x = modX K n x := by
  unfold modX
  rw [sum_range_succ]
  rcases h.eq_or_lt with h | h
  · rw [h, sub_self]; ring
  · rw [modF_nat n K h]; ring

/-- The closed form. -/
theorem modulus_eq {x : ℝ} (hx : x ≠ 0) (n : ℕ) : ∀ K, n + 1 ≤ K →
    x ^ 2 * (sphJ n x ^ 2 + sphN n x ^ 2) = modM (K + 1) n x ∧ x ^ 2 * (sphJ (n + 1) x ^ 2 + sphN (n + 1) x ^ 2) = modM (K + 1) (n + 1) x ∧
      x ^ 2 * (sphJ (n + 1) x * sphJ n x + sphN (n + 1) x * sphN n x) = modX K (n + 1) x := by
  have sc := Real.sin_sq_add_cos_sq x
  induction n with
  | zero =>
    intro K hK
    have z : ∀ f : ℕ → ℝ, (∀ k, 2 ≤ k → f k = 0) → ∑ k ∈ range (K + 1), f k = f 0 + f 1 := by
      intro f hf
      rw [← sum_subset (s₁ := range 2) (fun k hk => by simp at hk ⊢; omega) (fun k _ hk => hf k (by simp at hk; omega))]
      simp [sum_range_succ]
    refine ⟨?_, ?_, ?_⟩
    · unfold modM
      rw [z _ (fun k hk => by rw [modF_nat 0 k (by omega)]; ring), modF_nat 0 1 (by omega)]
      simp only [sphJ, sphN, modC, modF]
      have e : x ^ 2 * ((Real.sin x / x) ^ 2 + (-Real.cos x / x) ^ 2) = Real.sin x ^ 2 + Real.cos x ^ 2 := by field_simp
      rw [e, sc]
      norm_num
    · unfold modM
      rw [z _ (fun k hk => by rw [modF_nat (0 + 1) k (by omega)]; ring)]
      simp only [sphJ, sphN, modC, modF]
      have e : x ^ 2 * ((Real.sin x / x ^ 2 - Real.cos x / x) ^ 2 + (-Real.cos x / x ^ 2 - Real.sin x / x) ^ 2) = (Real.sin x ^ 2 + Real.cos x ^ 2) * (1 + (1 / x) ^ 2) := by
        field_simp; ring
      rw [e, sc]
      push_cast
      ring
    · unfold modX
      have : ∑ k ∈ range K, modC k * modF ((0 + 1 : ℕ) : ℝ) k * (((0 + 1 : ℕ) : ℝ) - k) * (1 / x) ^ (2 * k + 1) = 1 / x := by
        rw [← sum_subset (s₁ := range 1) (fun k hk => by simp at hk ⊢; omega) (fun k _ hk => by
          simp at hk
          rcases (show 1 ≤ k by omega).eq_or_lt with h | h
          · rw [← h]; simp
          · rw [modF_nat (0 + 1) k (by omega)]; ring)]
        simp [modC, modF]
      rw [this]
      simp only [sphJ, sphN]
      field_simp
      linear_combination sc
  | succ n ih =>
    intro K hK
    obtain ⟨a, b, c⟩ := ih K (by omega)
    have j := sphJ_succ (n + 1) (by omega) (x := x)
    have y := sphN_succ (n + 1) (by omega) (x := x)
    rw [Nat.add_sub_cancel] at j y
    have u := modX_up K (n + 1) x
    have v := modM_up K (n + 1) (by omega) x
    rw [Nat.add_sub_cancel] at v
    have bM : modM K (n + 1) x = modM (K + 1) (n + 1) x := by
      unfold modM
      rw [sum_range_succ, modF_nat (n + 1) K (by omega)]; ring
    rw [bM] at u
    have c2 : x ^ 2 * (sphJ (n + 1 + 1) x * sphJ (n + 1) x + sphN (n + 1 + 1) x * sphN (n + 1) x) = modX K (n + 1 + 1) x := by
      rw [j, y]
      linear_combination ((2 * ((n + 1 : ℕ) : ℝ) + 1) / x) * b - c - u
    refine ⟨b, ?_, c2⟩
    have e : modM (K + 1) (n + 1 + 1) x = modM (K + 1) n x + (2 * ((n + 1 : ℕ) : ℝ) + 1) / x * (modX K (n + 1 + 1) x - modX K (n + 1) x) := by linarith
    rw [e, ← a, ← c2, ← c, j, y]
    ring

/-- The modulus grows with the order. -/
theorem modulus_mono {x : ℝ} (hx : x ≠ 0) (n : ℕ) : sphJ n x ^ 2 + sphN n x ^ 2 ≤ sphJ (n + 1) x ^ 2 + sphN (n + 1) x ^ 2 := by
  obtain ⟨a, b, _⟩ := modulus_eq hx n (n + 1) (le_refl _)
  have h : modM (n + 1 + 1) n x ≤ modM (n + 1 + 1) (n + 1) x := by
    unfold modM
    refine sum_le_sum fun k _ => mul_le_mul_of_nonneg_right (mul_le_mul_of_nonneg_left (modF_mono n k) (modC_pos k).le) ?_
    rw [pow_mul]; positivity
  rw [← a, ← b] at h
  exact le_of_mul_le_mul_left h (by positivity)

end Verif
